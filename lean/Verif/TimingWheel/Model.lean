/-!
# Model of the timing wheel `ThreadTaskRunnerTimerManger` (src/YY/Base/Threading/ThreadTaskRunnerTimerManger.h)

Line numbers refer to that file.  Times are natural numbers: `TickCount` values in ticks, of which `K ≥ 1`
make a millisecond (`GetTotalMilliseconds` is division by `K`, TickCount.h 144-147), so 64-bit wrap-around is
not modelled.  A list of timers is a `List` (SingleLinkedList: `Push` appends, `Pop` takes the front; its
pointer implementation is verified in `Verif.SingleLinkedList`), a bitmap a function to `Bool` (`Find(i)` answers
the first member from `i` on, verified in `Verif.BitMap`).
-/
namespace Verif.TimingWheel

/-- a timer: its identity and `uExpire` in ticks -/
structure Tm where
  id : Nat
  exp : Nat
deriving DecidableEq, Repr

def upd {α} (f : Nat → α) (i : Nat) (v : α) : Nat → α := fun j => if j = i then v else f j

/-- `arrTimingWheelN` with its bitmap (45-57) -/
structure Wheel where
  slot : Nat → List Tm := fun _ => []
  bit : Nat → Bool := fun _ => false

/-- the members (42-57) -/
structure Mgr where
  /-- `uTimingWheelLastTickCount`, ticks -/
  last : Nat
  /-- `uTimingWheelBasePreMilliseconds` -/
  base : Nat
  w1 : Wheel := {}
  w2 : Wheel := {}
  w3 : Wheel := {}
  others : List Tm := []

/-- `GetTotalMilliseconds` (TickCount.h 144-147) -/
def ms (K t : Nat) : Nat := t / K

/-- the constructor (60-65) at time `now` -/
def new (K now : Nat) : Mgr := { last := now, base := ms K now - ms K now % 8 }

/-- `arrTimingWheel[k].Push(t); oBitMap.SetItem(k, true)` (82-84, 90-92, 97-99) -/
def Wheel.push (w : Wheel) (k : Nat) (t : Tm) : Wheel := ⟨upd w.slot k (w.slot k ++ [t]), upd w.bit k true⟩

/-- `SetTimerInternal` (68-109) with a non-null timer; `true` if the timer was dispatched at once.
`_uSpanBlock` is compared as unsigned; it is not negative here because the timer is later than `last`.  For a timer within the first
millisecond of the clock (`base + span = 0`) the code's `- 1` wraps around and gives slot 127, the model slot 0. -/
def setTimer (K : Nat) (m : Mgr) (t : Tm) : Mgr × Bool :=
  if t.exp ≤ m.last then (m, true)
  else
    let span := ms K t.exp - m.base
    let b := (m.base + span - 1) / 8
    if span ≤ 8 * 128 then ({ m with w1 := m.w1.push (b % 128) t }, false)
    else if span ≤ 8 * 128 * 64 then ({ m with w2 := m.w2.push (b / 128 % 64) t }, false)
    else if span ≤ 8 * 128 * 64 * 64 then ({ m with w3 := m.w3.push (b / 128 / 64 % 64) t }, false)
    else ({ m with others := m.others ++ [t] }, false)

/-- `BitMap::Find` (specification proved in `Verif.BitMap.C24_history`) -/
def find (bit : Nat → Bool) (N i : Nat) : Option Nat := (List.range N).find? (fun k => decide (i ≤ k) && bit k)

/-- the loops that move the slots from `i` up to `lim` into the pending list (147-158, 164-175, 190-198, 216-227,
234-245, ...): `inc` tells whether the index is incremented after a slot (the first loop of branch 1 does not).
`fuel` bounds the iterations; `drain` starts with more than there are slots. -/
def drainLoop (N lim : Nat) (inc : Bool) : Nat → Nat → Wheel × List Tm → Wheel × List Tm
  | 0, _, r => r
  | fuel + 1, i, (w, acc) =>
    match find w.bit N i with
    | none => (w, acc)
    | some k =>
      if lim ≤ k then (w, acc)
      else drainLoop N lim inc fuel (if inc then k + 1 else k) (⟨upd w.slot k [], upd w.bit k false⟩, acc ++ w.slot k)

def drain (N i lim : Nat) (inc : Bool) (r : Wheel × List Tm) : Wheel × List Tm := drainLoop N lim inc (N + 1) i r

/-- the body of the loop of `FetchTimingWheel3` (563-594); `canc` is `IsCanceled` -/
def place3 (K cur : Nat) (canc : Nat → Bool) (s : Mgr × List Tm × List Tm) (t : Tm) : Mgr × List Tm × List Tm :=
  let (m, pend, rest) := s
  if canc t.id ∨ ms K t.exp ≤ ms K cur then (m, pend ++ [t], rest)
  else
    let cnt := ms K t.exp - (ms K cur - ms K cur % 8)
    let b := (ms K t.exp - 1) / 8
    if cnt ≤ 8 * 128 then ({ m with w1 := m.w1.push (b % 128) t }, pend, rest)
    else if cnt ≤ 8 * 128 * 64 then ({ m with w2 := m.w2.push (b / 128 % 64) t }, pend, rest)
    else if cnt ≤ 8 * 128 * 64 * 64 then ({ m with w3 := m.w3.push (b / 128 / 64 % 64) t }, pend, rest)
    else (m, pend, rest ++ [t])

/-- `FetchTimingWheel3` (551-598) -/
def fetch3 (K cur : Nat) (canc : Nat → Bool) (m : Mgr) (pend : List Tm) : Mgr × List Tm :=
  let (m', pend', rest) := m.others.foldl (place3 K cur canc) ({ m with others := [] }, pend, [])
  ({ m' with others := rest }, pend')

/-- the body of the loop of `FetchTimingWheel2` (514-545) -/
def place2 (K cur : Nat) (canc : Nat → Bool) (s : Mgr × List Tm) (t : Tm) : Mgr × List Tm :=
  let (m, pend) := s
  if canc t.id ∨ ms K t.exp ≤ ms K cur then (m, pend ++ [t])
  else
    let cnt := ms K t.exp - (ms K cur - ms K cur % 8)
    let b := (ms K t.exp - 1) / 8
    if cnt ≤ 8 * 128 then ({ m with w1 := m.w1.push (b % 128) t }, pend)
    else if cnt ≤ 8 * 128 * 64 then ({ m with w2 := m.w2.push (b / 128 % 64) t }, pend)
    else (m, pend ++ [t])

/-- empties slot `k` -/
def Wheel.take (w : Wheel) (k : Nat) : Wheel := ⟨upd w.slot k [], upd w.bit k false⟩

/-- `FetchTimingWheel2` (500-549).  The loop pushes only into wheels 1 and 2, so popping slot by slot is the same
as emptying the slot first. -/
def fetch2 (K cur : Nat) (canc : Nat → Bool) (i3 : Nat) (m : Mgr) (pend : List Tm) : Mgr × List Tm :=
  let k := i3 % 64
  let (m, pend) := if k = 0 then fetch3 K cur canc m pend else (m, pend)
  (m.w3.slot k).foldl (place2 K cur canc) ({ m with w3 := m.w3.take k }, pend)

/-- the body of the loop of `FetchTimingWheel1` (468-494) -/
def place1 (K cur : Nat) (canc : Nat → Bool) (s : Mgr × List Tm) (t : Tm) : Mgr × List Tm :=
  let (m, pend) := s
  if canc t.id ∨ ms K t.exp ≤ ms K cur then (m, pend ++ [t])
  else
    let cnt := ms K t.exp - (ms K cur - ms K cur % 8)
    let b := (ms K t.exp - 1) / 8
    if cnt ≤ 8 * 128 then ({ m with w1 := m.w1.push (b % 128) t }, pend)
    else (m, pend ++ [t])

/-- `FetchTimingWheel1` (453-498) -/
def fetch1 (K cur : Nat) (canc : Nat → Bool) (i2 : Nat) (m : Mgr) (pend : List Tm) : Mgr × List Tm :=
  let k := i2 % 64
  let (m, pend) := if k = 0 then fetch2 K cur canc (i2 / 64) m pend else (m, pend)
  (m.w2.slot k).foldl (place1 K cur canc) ({ m with w2 := m.w2.take k }, pend)

/-- moves the slots `[start, end)` of a wheel of `N` slots, `end` possibly wrapped around (147-175, 211-246, 282-312);
`inc` concerns the first loop only -/
def drainWrap (N s e : Nat) (inc : Bool) (w : Wheel) (pend : List Tm) : Wheel × List Tm :=
  let r := drain N s (if s ≤ e then e else N) inc (w, pend)
  if e < s then drain N 0 e true r else r

/-- the branches of `ProcessingTimerTasks` up to the label `END` (138-371) -/
def collect (K cur : Nat) (canc : Nat → Bool) (m : Mgr) : Mgr × List Tm :=
  let span := ms K cur - m.base
  let first := m.base / 8
  let last := (m.base + span) / 8
  if span < 8 * 128 then
    let s1 := first % 128
    let e1 := last % 128
    let (w1, pend) := drainWrap 128 s1 e1 false m.w1 []
    let m := { m with w1 := w1 }
    if e1 < s1 then fetch1 K cur canc (first / 128 + 1) m pend else (m, pend)
  else if span < 8 * 128 * 64 then
    let (w1, pend) := drain 128 0 128 true (m.w1, [])
    let m := { m with w1 := w1 }
    let s2 := first / 128
    let e2 := last / 128
    if s2 = e2 then (m, pend)
    else
      let i := (s2 + 1) % 64
      let j := e2 % 64
      let (w2, pend) := if s2 + 1 ≠ e2 then drainWrap 64 i j true m.w2 pend else (m.w2, pend)
      let (m, pend) := fetch1 K cur canc e2 { m with w2 := w2 } pend
      if j < i then fetch2 K cur canc (first / 128 / 64 + 1) m pend else (m, pend)
  else if span < 8 * 128 * 64 * 64 then
    let (w1, pend) := drain 128 0 128 true (m.w1, [])
    let (w2, pend) := drain 64 0 64 true (m.w2, pend)
    let m := { m with w1 := w1, w2 := w2 }
    let s3 := first / 128 / 64
    let e3 := last / 128 / 64
    if s3 = e3 then (m, pend)
    else
      let i := (s3 + 1) % 64
      let j := e3 % 64
      let (w3, pend) := drainWrap 64 i j true m.w3 pend
      let (m, pend) := fetch2 K cur canc e3 { m with w3 := w3 } pend
      if j < i then fetch3 K cur canc m pend else (m, pend)
  else
    let (w1, pend) := drain 128 0 128 true (m.w1, [])
    let (w2, pend) := drain 64 0 64 true (m.w2, pend)
    let (w3, pend) := drain 64 0 64 true (m.w3, pend)
    fetch3 K cur canc { m with w1 := w1, w2 := w2, w3 := w3 } pend

/-- `ProcessingTimerTasks` (111-384) up to the dispatch loop (375-381), whose input is the second component -/
def process (K cur : Nat) (canc : Nat → Bool) (m : Mgr) : Mgr × List Tm :=
  if cur ≤ m.last then (m, [])
  else
    let m := { m with last := cur }
    if ms K cur - m.base = 0 then (m, [])
    else if m.base / 8 = (m.base + (ms K cur - m.base)) / 8 then (m, [])
    else
      let (m', pend) := collect K cur canc m
      ({ m' with base := ms K cur - ms K cur % 8 }, pend)

/-- `BitMap::IsEmpty` -/
def isEmpty (bit : Nat → Bool) (N : Nat) : Bool := (List.range N).all fun k => !bit k

/-- `GetMinimumWakeupTickCount` (386-448) in milliseconds; `none` is `TickCount::GetMax()` -/
def wakeup (m : Mgr) : Option Nat :=
  let n1 := m.base / 8
  let n2 := n1 / 128
  let n3 := n2 / 64
  if !isEmpty m.w1.bit 128 then
    let i := n1 % 128
    match find m.w1.bit 128 i with
    | some k => some (m.base + (k - i + 1) * 8)
    | none => some (m.base + (128 - i) * 8)
  else if !isEmpty m.w2.bit 64 then
    let b := m.base - m.base % 65536
    let i := (n2 + 1) % 64
    match find m.w2.bit 64 i with
    | some k => if 0 < k then some (b + k * 1024) else some (b + 64 * 1024)
    | none => some (b + 64 * 1024)
  else if !isEmpty m.w3.bit 64 then
    let b := m.base - m.base % 4194304
    let i := (n3 + 1) % 64
    match find m.w3.bit 64 i with
    | some k => some (b + k * 65536)
    | none => some (b + 64 * 65536)
  else if m.others.isEmpty then none
  else some (m.base + 4194304)

/-! ### The manager and its environment -/

/-- the manager, the timers taken out but not yet dispatched (the local list of `ProcessingTimerTasks`, 376-381; of all
of them if calls are nested), the cancellation flags, and the logs of calls: every timer set, the timers whose expiry was
more than 2^22 ms after the base when they were set, every dispatch with the time (`last`) at which it happened -/
structure World where
  m : Mgr
  pend : List Tm := []
  canc : Nat → Bool := fun _ => false
  set : List Tm := []
  far : List Tm := []
  fired : List (Tm × Nat) := []

inductive Ev where
  | set (t : Tm)
  | cancel (i : Nat)
  | process (cur : Nat)
  | fire (t : Tm)

def World.set' (K : Nat) (w : World) (t : Tm) : World :=
  { w with
    m := (setTimer K w.m t).1
    set := w.set ++ [t]
    far := if w.m.base + 4194304 < ms K t.exp then w.far ++ [t] else w.far
    fired := if (setTimer K w.m t).2 then w.fired ++ [(t, w.m.last)] else w.fired }

def World.process' (K : Nat) (w : World) (cur : Nat) : World :=
  { w with m := (process K cur w.canc w.m).1, pend := w.pend ++ (process K cur w.canc w.m).2 }

/-- Calls on the runner's thread in any order.  The callbacks run by a dispatch may set timers and even process again, so
`set`, `process` and `fire` interleave freely. -/
inductive Step (K : Nat) : World → Ev → World → Prop
  | set (w : World) (t : Tm) : Step K w (.set t) (w.set' K t)
  | cancel (w : World) (i : Nat) : Step K w (.cancel i) { w with canc := upd w.canc i true }
  | process (w : World) (cur : Nat) : Step K w (.process cur) (w.process' K cur)
  /-- 376-381 -/
  | fire (w : World) (t : Tm) (l r : List Tm) : w.pend = l ++ t :: r →
      Step K w (.fire t) { w with pend := l ++ r, fired := w.fired ++ [(t, w.m.last)] }

/-- histories in which every event satisfies `ok` -/
inductive Reach (K : Nat) (ok : World → Ev → Prop) (w0 : World) : World → Prop
  | refl : Reach K ok w0 w0
  | step {w e w'} : Reach K ok w0 w → ok w e → Step K w e w' → Reach K ok w0 w'

/-- a new manager at time `now` -/
def start (K now : Nat) : World := { m := new K now }

end Verif.TimingWheel
