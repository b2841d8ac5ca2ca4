/-!
# Model of the processor count (src/YY/Base/Threading/ParallelTaskRunnerImpl.hpp 17-127)

Unsigned machine words are natural numbers; the sums are reduced to the width of the word.
-/
namespace Verif.CpuCount

/-- one line of `BitsCount32` / `BitsCount64`: `(x & mask) + ((x >> k) & mask)` in a word of `bits` bits -/
def fold (bits k mask x : Nat) : Nat := ((x &&& mask) + ((x >>> k) &&& mask)) % 2 ^ bits

/-- `BitsCount32` (17-25) -/
def bitsCount32 (x : Nat) : Nat :=
  let x := fold 32 1 0x55555555 x
  let x := fold 32 2 0x33333333 x
  let x := fold 32 4 0x0f0f0f0f x
  let x := fold 32 8 0x00ff00ff x
  let x := fold 32 16 0x0000ffff x
  x

/-- `BitsCount64` (27-36), the result cast to 32 bits -/
def bitsCount64 (x : Nat) : Nat :=
  let x := fold 64 1 0x5555555555555555 x
  let x := fold 64 2 0x3333333333333333 x
  let x := fold 64 4 0x0f0f0f0f0f0f0f0f x
  let x := fold 64 8 0x00ff00ff00ff00ff x
  let x := fold 64 16 0x0000ffff0000ffff x
  let x := fold 64 32 0x00000000ffffffff x
  x % 2 ^ 32

/-- `BitsCount(uintptr_t)` (46-54) of a 32-bit or a 64-bit process -/
def bitsCount (is64 : Bool) (x : Nat) : Nat := if is64 then bitsCount64 x else bitsCount32 x

/-- What the operating system answers to one execution of the body (64-98). -/
structure Env where
  /-- the packages of the machine, each with the affinity masks of its groups; `GetLogicalProcessorInformationEx` writes one record for each,
  one after the other -/
  packages : List (List Nat)
  /-- the size query ends in an error other than `ERROR_INSUFFICIENT_BUFFER` (69-75) -/
  sizeFails : Bool
  /-- `Alloc` fails (77-79) -/
  allocFails : Bool
  /-- the second call fails (81-82) -/
  queryFails : Bool
  /-- `dwNumberOfProcessors` (94-97) -/
  native : Nat

/-- the loop of lines 84-87 over the `GroupCount` masks of the record at the start of the buffer; the sum is a `uint32_t` -/
def sumMasks (is64 : Bool) (acc : Nat) : List Nat → Nat
  | [] => acc
  | m :: ms => sumMasks is64 ((acc + bitsCount is64 m) % 2 ^ 32) ms

/-- the `do … while (false)` block (66-89).  A machine without packages would leave the buffer empty: the count stays 0. -/
def query (is64 : Bool) (e : Env) : Nat :=
  if e.sizeFails then 0
  else if e.allocFails then 0
  else if e.queryFails then 0
  else match e.packages with
    | [] => 0
    | first :: _ => sumMasks is64 0 first

/-- lines 92-101 -/
def fallback (n native : Nat) : Nat :=
  let n := if n = 0 then native else n
  if n = 0 then 1 else n

/-- `GetLogicalProcessorCount` up to the publication (64-101, Windows) -/
def compute (is64 : Bool) (e : Env) : Nat := fallback (query is64 e) e.native

/-- the value computed by the Unix version (116-124); `get_nprocs` returns an `int`, converted to `uint32_t` -/
def computeUnix (nprocs : Int) : Nat := if nprocs ≠ 0 then (nprocs % 4294967296).toNat else 1

/-! ## The cached value: threads calling the function -/

/-- where a thread is -/
inductive PC where
  | idle
  /-- read 0 from the cache (60 / 111), the value still has to be computed -/
  | compute
  /-- computed, before the compare exchange (104) / the store (119, 123) -/
  | publish (v : Nat)
  /-- Unix: stored, before the value is read again for the return (125) -/
  | reread
deriving DecidableEq

structure St where
  cache : Nat
  pc : Nat → PC
  /-- the values returned so far, latest first -/
  ret : List Nat

def init : St := ⟨0, fun _ => .idle, []⟩

def upd (f : Nat → PC) (t : Nat) (x : PC) : Nat → PC := fun u => if u = t then x else f u

/-- Windows (57-106): `vals` is the set of values the body can compute -/
inductive Step (vals : Nat → Prop) : St → St → Prop
  /-- 60-63 -/
  | hit (s : St) (t : Nat) : s.pc t = .idle → s.cache ≠ 0 → Step vals s { s with ret := s.cache :: s.ret }
  | miss (s : St) (t : Nat) : s.pc t = .idle → s.cache = 0 → Step vals s { s with pc := upd s.pc t .compute }
  /-- 64-101 -/
  | compute (s : St) (t v : Nat) : s.pc t = .compute → vals v → Step vals s { s with pc := upd s.pc t (.publish v) }
  /-- 104-105: the compare exchange succeeds -/
  | first (s : St) (t v : Nat) : s.pc t = .publish v → s.cache = 0 →
      Step vals s { cache := v, pc := upd s.pc t .idle, ret := v :: s.ret }
  /-- 104-105: it fails, the value of the other thread is returned -/
  | other (s : St) (t v : Nat) : s.pc t = .publish v → s.cache ≠ 0 →
      Step vals s { s with pc := upd s.pc t .idle, ret := s.cache :: s.ret }

/-- Unix (108-126) -/
inductive StepU (vals : Nat → Prop) : St → St → Prop
  /-- 111-114: the value is read twice, but once it is not 0 it does not return to 0; the second read is taken as one step with the first -/
  | hit (s : St) (t : Nat) : s.pc t = .idle → s.cache ≠ 0 → StepU vals s { s with ret := s.cache :: s.ret }
  | miss (s : St) (t : Nat) : s.pc t = .idle → s.cache = 0 → StepU vals s { s with pc := upd s.pc t .compute }
  /-- 116 -/
  | compute (s : St) (t v : Nat) : s.pc t = .compute → vals v → StepU vals s { s with pc := upd s.pc t (.publish v) }
  /-- 119, 123 -/
  | store (s : St) (t v : Nat) : s.pc t = .publish v → StepU vals s { s with cache := v, pc := upd s.pc t .reread }
  /-- 125 -/
  | reread (s : St) (t : Nat) : s.pc t = .reread → StepU vals s { s with pc := upd s.pc t .idle, ret := s.cache :: s.ret }

inductive Reach (R : St → St → Prop) : St → Prop
  | init : Reach R init
  | step {s t} : Reach R s → R s t → Reach R t

end Verif.CpuCount
