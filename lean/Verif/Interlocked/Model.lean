/-!
# Model of the interlocked operations on one word (include/YY/Base/Sync/Interlocked.h)

`n` is the width of the word (32 or 64).  Each compiler intrinsic is one atomic step (trusted).
-/
namespace Verif.Interlocked

/-! ## Sequential meaning of the single-step operations -/

/-- `_interlockedbittestandset[64]` (BitSet 224, 240-243): new word and old bit. On 32-bit targets the 32-bit instruction is used for the
64-bit overload; with a memory operand it addresses a bit string, so the bit is the same. -/
def msvcSet {n : Nat} (w : BitVec n) (k : Nat) : BitVec n × Bool := (w ||| (1#n <<< k), w.getLsbD k)
/-- `_interlockedbittestandreset[64]` (BitReset 288, 302-305) -/
def msvcReset {n : Nat} (w : BitVec n) (k : Nat) : BitVec n × Bool := (w &&& ~~~(1#n <<< k), w.getLsbD k)

/-- BitSet, 32 bits, other compilers (226-228); a shift by 32 or more is undefined (`none`). -/
def portSet32 (w : BitVec 32) (k : Nat) : Option (BitVec 32 × Bool) :=
  if k < 32 then
    let m : BitVec 32 := 1#32 <<< k
    some (w ||| m, decide (w &&& m ≠ 0))
  else none
/-- BitReset, 32 bits, other compilers (290-292) -/
def portReset32 (w : BitVec 32) (k : Nat) : Option (BitVec 32 × Bool) :=
  if k < 32 then
    let m : BitVec 32 := 1#32 <<< k
    some (w &&& ~~~m, decide (w &&& m ≠ 0))
  else none

/-- BitSet, 64 bits, other compilers (245-247): the mask is a `uint32_t`, zero extended. -/
def portSet64 (w : BitVec 64) (k : Nat) : Option (BitVec 64 × Bool) :=
  if k < 32 then
    let m : BitVec 32 := 1#32 <<< k
    some (w ||| m.zeroExtend 64, decide (w &&& m.zeroExtend 64 ≠ 0))
  else none
/-- BitReset, 64 bits, other compilers (308-310): `~_fRemoveMark` is a `uint32_t`, zero extended. -/
def portReset64 (w : BitVec 64) (k : Nat) : Option (BitVec 64 × Bool) :=
  if k < 32 then
    let m : BitVec 32 := 1#32 <<< k
    some (w &&& (~~~m).zeroExtend 64, decide (w &&& m.zeroExtend 64 ≠ 0))
  else none

/-- `Add` 127-173: returns the new value -/
def add {n : Nat} (w a : BitVec n) : BitVec n × BitVec n := (w + a, w + a)
/-- unsigned `Subtract` 195-213: `Add(p, ~x + 1)` -/
def sub {n : Nat} (w a : BitVec n) : BitVec n × BitVec n := add w (~~~a + 1#n)
/-- signed `Subtract` 175-193: `int(~(unsigned)x) + 1` overflows (`none`) when `~x` is the largest integer. -/
def subSigned {n : Nat} (w a : BitVec n) : Option (BitVec n × BitVec n) :=
  if (~~~a).toInt + 1 < 2 ^ (n - 1) then some (add w (~~~a + 1#n)) else none

/-- `Exchange` 483-527 and `ExchangePoint` 529-551 (`xchg`): new word and result -/
def xchg {n : Nat} (w v : BitVec n) : BitVec n × BitVec n := (v, w)
/-- `CompareExchange` 347-446 and `CompareExchangePoint` 448-458 (`cmpxchg`): new word and result, the value found -/
def cmpxchg {n : Nat} (w e c : BitVec n) : BitVec n × BitVec n := (if w = c then e else w, w)

/-- `CompareExchangeTwoPoints` 468-481 on two words of `n` bits, x86 and 32-bit ARM: one `CompareExchange` of the double word. New destination, new contents of `_pComparandResult`, result.
A pair is (first word in memory, second word); the machine is little endian. -/
def twoPoints32 {n : Nat} (d e c : BitVec n × BitVec n) : (BitVec n × BitVec n) × (BitVec n × BitVec n) × Bool :=
  let r := cmpxchg (d.2 ++ d.1) (e.2 ++ e.1) (c.2 ++ c.1)
  ((r.1.extractLsb' 0 n, r.1.extractLsb' n n), (r.2.extractLsb' 0 n, r.2.extractLsb' n n), decide (r.2 = c.2 ++ c.1))
/-- … elsewhere (479): the 128-bit instruction, given the high word (`[1]`) and the low word (`[0]`) of the new value; it stores what it found into the comparand and reports success -/
def twoPoints64 {n : Nat} (d e c : BitVec n × BitVec n) : (BitVec n × BitVec n) × (BitVec n × BitVec n) × Bool :=
  (if d = c then e else d, d, decide (d = c))

/-! ### The overloads of `BitSet` and `BitReset` -/

/-- the type of `_pBase`: `volatile` or not, signed or not, 64 bits or 32 -/
structure Ov where
  vol : Bool
  signed : Bool
  wide : Bool
deriving DecidableEq

/-- the overload that the body of an overload of `BitSet` (221-275) calls; `none`: it does the work itself -/
def setCalls : Ov → Option Ov
  | ⟨true, false, _⟩ => none
  | ⟨false, false, w⟩ => some ⟨true, false, w⟩
  | ⟨true, true, w⟩ => some ⟨true, false, w⟩
  | ⟨false, true, w⟩ => some ⟨true, true, w⟩

/-- the same for `BitReset` (283-338) -/
def resetCalls : Ov → Option Ov
  | ⟨true, false, _⟩ => none
  | ⟨false, false, w⟩ => some ⟨true, false, w⟩
  -- 320-323: `reinterpret_cast<volatile int32_t*>`, the overload itself
  | ⟨true, true, false⟩ => some ⟨true, true, false⟩
  -- 325-328: `const_cast<int32_t*>`, the overload itself
  | ⟨false, true, false⟩ => some ⟨false, true, false⟩
  | ⟨true, true, true⟩ => some ⟨true, false, true⟩
  | ⟨false, true, true⟩ => some ⟨true, true, true⟩

/-- a call of overload `o` ends up in the body of `p` -/
inductive Ends (calls : Ov → Option Ov) : Ov → Ov → Prop
  | here {o : Ov} : calls o = none → Ends calls o o
  | call {o o' p : Ov} : calls o = some o' → Ends calls o' p → Ends calls o p

/-- `BitReset(volatile int32_t*, …)` 320-323 evaluated big-step: the call is to the very same overload with the same arguments. -/
inductive ResetI32 : BitVec 32 → Nat → BitVec 32 × Bool → Prop
  | call {w k r} : ResetI32 w k r → ResetI32 w k r

/-! ## Concurrent executions -/

inductive Op (n : Nat) where
  | bitSet (k : Nat)
  | bitReset (k : Nat)
  | increment
  | decrement
  | add (a : BitVec n)
  | sub (a : BitVec n)
  | bitOr (m : BitVec n)
  | bitXor (m : BitVec n)
  | bitAnd (m : BitVec n)
  | exchange (v : BitVec n)
  | compareExchange (e c : BitVec n)

inductive Ret (n : Nat) where
  | bit (b : Bool)
  | val (v : BitVec n)

inductive PC (n : Nat) where
  | idle
  /-- before the `CompareExchange` of a loop with `_iLastVlaue = last` -/
  | loop (op : Op n) (last : BitVec n)

structure St (n : Nat) where
  mem : BitVec n
  threads : List (PC n)
  /-- finished operations with their results, in the order in which they took effect -/
  log : List (Op n × Ret n) := []

/-- the value a loop tries to store (BitOr 561, BitXor 592, BitAnd 613) -/
def Op.next {n : Nat} : Op n → BitVec n → BitVec n
  | .bitOr m, v => v ||| m
  | .bitXor m, v => v ^^^ m
  | .bitAnd m, v => v &&& m
  | _, v => v

/-- single-instruction operations: new word and result -/
def Op.single {n : Nat} : Op n → BitVec n → Option (BitVec n × Ret n)
  | .bitSet k, w => some ((msvcSet w k).1, .bit (msvcSet w k).2)
  | .bitReset k, w => some ((msvcReset w k).1, .bit (msvcReset w k).2)
  | .increment, w => some ((Interlocked.add w 1#n).1, .val (Interlocked.add w 1#n).2)
  | .decrement, w => some ((Interlocked.add w (-1#n)).1, .val (Interlocked.add w (-1#n)).2)
  | .add a, w => some ((Interlocked.add w a).1, .val (Interlocked.add w a).2)
  | .sub a, w => some ((Interlocked.sub w a).1, .val (Interlocked.sub w a).2)
  | .exchange v, w => some ((xchg w v).1, .val (xchg w v).2)
  | .compareExchange e c, w => some ((cmpxchg w e c).1, .val (cmpxchg w e c).2)
  | _, _ => none

def Op.isLoop {n : Nat} : Op n → Bool
  | .bitOr _ | .bitXor _ | .bitAnd _ => true
  | _ => false

inductive Step {n : Nat} : St n → St n → Prop
  | single {s : St n} {i : Nat} {op : Op n} {w : BitVec n} {r : Ret n} : s.threads[i]? = some .idle → op.single s.mem = some (w, r) →
      Step s { s with mem := w, log := s.log ++ [(op, r)] }
  /-- `auto _iLastVlaue = *_pDestination;` -/
  | start {s : St n} {i : Nat} {op : Op n} : s.threads[i]? = some .idle → op.isLoop = true → Step s { s with threads := s.threads.set i (.loop op s.mem) }
  /-- the `CompareExchange` succeeds; the function returns `_iLastVlaue` -/
  | casOk {s : St n} {i : Nat} {op : Op n} {last : BitVec n} : s.threads[i]? = some (.loop op last) → s.mem = last →
      Step s { s with mem := op.next last, threads := s.threads.set i .idle, log := s.log ++ [(op, .val last)] }
  | casFail {s : St n} {i : Nat} {op : Op n} {last : BitVec n} : s.threads[i]? = some (.loop op last) → s.mem ≠ last →
      Step s { s with threads := s.threads.set i (.loop op s.mem) }

inductive Reach {n : Nat} (init : St n) : St n → Prop
  | refl : Reach init init
  | step {s t} : Reach init s → Step s t → Reach init t

end Verif.Interlocked
