import Verif.Arr.Range

/-!
# Model of the `Array` with small object optimisation

`AllocPolicyArray<_Type, AllocPolicy::SOO, n>` (include/YY/Base/Containers/Array.h 602-1051) under the common class `Array` (1053-1424). The object is a union: the small form keeps the elements inside the
object, the large form has a pointer, a capacity and a lock count; the lowest bit of the first word tells which form it is (in the large form this is the lowest bit of `pData`).

Element slots and the element operations of ConstructorPolicy.h are those of `Verif.Arr`.

Simplifications:
* one element type at a time, either trivial in every respect or with its own constructors (`Ty.triv`); element operations do not throw;
* 64 bit: `sizeof(LargeHeader)` is 32; sizes in bytes wrap at 2^64 (`bytes`, `up16`), the number of elements and locks does not;
* the allocator is an oracle (`Al`): failure or an address;
* single threaded; pointer and reference arguments do not point into the array itself (see C18 for what happens then); `Sort`, null pointer arguments are left out.

Undefined behaviour: access outside a buffer or to a freed block, use of the wrong member of the union, and, for types with constructors, construction over an element, use or destruction of a slot without one.
-/
namespace Verif.Soo
open Verif.Arr

variable {α : Type}

/-- an instance of the template: element type, `sizeof(_Type)`, `_uInsideBufferSize` -/
structure Par (α : Type) where
  T : Ty α
  sz : Nat
  ins : Nat

/-- `AllocPolicyArraySOOSmallHeader::GetCapacity` (626, 633-636; 650, 657-660) -/
def Par.smallCap (P : Par α) : Nat := (32 + P.sz * P.ins - 16) / P.sz

/-- size of `n` elements in bytes, as `size_t` -/
def bytes (P : Par α) (n : Nat) : Nat := n * P.sz % 2 ^ 64

/-- `(n + 15) & ~15` in `size_t` (1022) -/
def up16 (n : Nat) : Nat := (n + 15) % 2 ^ 64 / 16 * 16

/-- what lies behind the first two words of the union: `InsideBuffer` (626), or `uCapacity` and `uLockCount` (610-612) -/
inductive Body (α : Type) where
  | inside (b : Buf α)
  | large (cap lock : Nat)
deriving DecidableEq

/-- the union `InternalData` (668-682). `w0`: the first word, `bSmallHeader` with `uLockCount` or `pData`. -/
structure Obj (α : Type) where
  w0 : Nat
  size : Nat
  body : Body α
deriving DecidableEq

/-- heap blocks -/
abbrev Heap (α : Type) := Nat → Option (Buf α)
def hset (m : Heap α) (a : Nat) (v : Option (Buf α)) : Heap α := fun b => if b = a then v else m b

/-- `InternalData()` (684-687): `Small{1}` -/
def fresh (P : Par α) : Obj α := ⟨1, 0, .inside (List.replicate P.smallCap .raw)⟩

/-- `GetData` (730-733): the buffer; `none`: undefined -/
def getBuf (m : Heap α) (o : Obj α) : Option (Buf α) :=
  if o.w0 % 2 = 1 then
    match o.body with
    | .inside b => some b
    | .large _ _ => none
  else
    match o.body with
    | .inside _ => none
    | .large _ _ => m o.w0

/-- the buffer gets new contents -/
def putBuf (m : Heap α) (o : Obj α) (b : Buf α) : Heap α × Obj α :=
  if o.w0 % 2 = 1 then (m, { o with body := .inside b }) else (hset m o.w0 (some b), o)

/-- `GetCapacity` (718-728) -/
def getCap (P : Par α) (o : Obj α) : Option Nat :=
  if o.w0 % 2 = 1 then some P.smallCap
  else
    match o.body with
    | .inside _ => none
    | .large c _ => some c

/-- `GetLockedCount` (747-757) -/
def getLocks (o : Obj α) : Option Nat :=
  if o.w0 % 2 = 1 then some (o.w0 / 2)
  else
    match o.body with
    | .inside _ => none
    | .large _ k => some k

/-- `Lock` (764-774) -/
def lockObj (o : Obj α) : Option (Obj α) :=
  if o.w0 % 2 = 1 then some { o with w0 := (o.w0 / 2 + 1) * 2 + 1 }
  else
    match o.body with
    | .inside _ => none
    | .large c k => some { o with body := .large c (k + 1) }

/-- `Unlock` (776-797) of a locked object -/
def unlockObj (o : Obj α) : Option (Obj α) :=
  if o.w0 % 2 = 1 then some { o with w0 := (o.w0 / 2 - 1) * 2 + 1 }
  else
    match o.body with
    | .inside _ => none
    | .large c k => some { o with body := .large c (k - 1) }

inductive Hr where
  | ok | oom | bounds | inval
deriving DecidableEq, Repr

/-- outcome of a member function of one object -/
inductive Res (α : Type) where
  | ub
  | thr (m : Heap α) (o : Obj α)
  | ret (hr : Hr) (m : Heap α) (o : Obj α)

/-- `Realloc` (800-860). A block of `n` elements really has room for `bytes / sizeof`. -/
def realloc (P : Par α) (m : Heap α) (o : Obj α) (n : Nat) (al : Al) : Res α :=
  match getCap P o, getLocks o, getBuf m o with
  | some c, some k, some b =>
    if n ≤ c then .ret .ok m o
    else if k ≠ 0 then .ret .inval m o
    else
      match al with
      | none => .ret .oom m o
      | some q =>
        -- 818, 838, 851: the elements go to the new block; 819, 852: the old ones are destroyed
        match consL P.T (List.replicate (bytes P n / P.sz) .raw) 0 (b.take o.size), desN P.T b 0 o.size with
        | some b', some _ =>
          let m1 := if o.w0 % 2 = 1 then m else hset m o.w0 none
          .ret .ok (hset m1 q (some b')) { o with w0 := q, body := .large n 0 }
        | _, _ => .ub
  | _, _, _ => .ub

/-- `LockInternalData` (1013-1030), `LockInternalDataIncrement` (1032-1049): `need` elements are wanted, `grow` are asked for when they do not fit. `inval`/`oom`: null is returned. -/
def acquire (P : Par α) (m : Heap α) (o : Obj α) (need grow : Nat) (al : Al) : Res α :=
  match getCap P o with
  | none => .ub
  | some c =>
    match (if need ≤ c then .ret .ok m o else realloc P m o grow al) with
    | .ret .ok m1 o1 =>
      match lockObj o1 with
      | none => .ub
      | some o2 => .ret .ok m1 o2
    | r => r

/-- change of the buffer by one of the functions of `Verif.Arr` -/
def edit (m : Heap α) (o : Obj α) (f : Blk α → Option (Blk α)) : Option (Heap α × Obj α) :=
  match getBuf m o with
  | none => none
  | some b =>
    match f ⟨1, o.size, b⟩ with
    | none => none
    | some d => some (putBuf m { o with size := d.size } d.buf)

/-- lock, change, unlock; a null pointer from the lock becomes `E_OUTOFMEMORY` -/
def withLock (P : Par α) (m : Heap α) (o : Obj α) (need grow : Nat) (al : Al) (f : Blk α → Option (Blk α)) : Res α :=
  match acquire P m o need grow al with
  | .ret .ok m1 o1 =>
    match edit m1 o1 f with
    | none => .ub
    | some (m2, o2) =>
      match unlockObj o2 with
      | none => .ub
      | some o3 => .ret .ok m2 o3
  | .ret _ m1 o1 => .ret .oom m1 o1
  | r => r

/-- `LockInternalDataIncrement(inc)`, change, unlock -/
def withInc (P : Par α) (m : Heap α) (o : Obj α) (inc : Nat) (al : Al) (f : Blk α → Option (Blk α)) : Res α :=
  match getCap P o with
  | none => .ub
  | some c => withLock P m o (o.size + inc) (newCapacity c (o.size + inc)) al f

/-- `Clear` (900-925) -/
def clear (P : Par α) (m : Heap α) (o : Obj α) : Res α :=
  if o.size = 0 then .ret .ok m o
  else
    match getLocks o with
    | none => .ub
    | some k =>
      if k ≠ 0 then .thr m o
      else
        match edit m o fun d => (desN P.T d.buf 0 d.size).map fun b => { d with buf := b, size := 0 } with
        | none => .ub
        | some (m1, o1) => .ret .ok m1 o1

/-- the copying part of `SetArray` (942-953) -/
def setEdit (T : Ty α) (vs : List (Slot α)) (d : Blk α) : Option (Blk α) :=
  match asgL T d.buf 0 (vs.take d.size) with
  | none => none
  | some b =>
    match (if vs.length ≤ d.size then desN T b vs.length (d.size - vs.length) else consL T b d.size (vs.drop d.size)) with
    | none => none
    | some b => some { d with buf := b, size := vs.length }

/-- `SetArray(pointer, count)` (927-955) -/
def setArr (P : Par α) (m : Heap α) (o : Obj α) (vs : List (Slot α)) (al : Al) : Res α :=
  match getLocks o with
  | none => .ub
  | some k =>
    if k ≠ 0 ∧ vs.length < o.size then .ret .inval m o
    else
      match realloc P m o vs.length al with
      | .ret .ok m1 o1 =>
        match edit m1 o1 (setEdit P.T vs) with
        | none => .ub
        | some (m2, o2) => .ret .ok m2 o2
      | r => r

/-- `Reserve` (1095-1103) -/
def reserve (P : Par α) (m : Heap α) (o : Obj α) (n : Nat) (al : Al) : Res α := withLock P m o n (up16 n) al some

/-- `LockBufferAndSetSize` (1121-1147): the buffer stays locked -/
def lockSize (P : Par α) (m : Heap α) (o : Obj α) (n : Nat) (al : Al) : Res α :=
  match acquire P m o n (up16 n) al with
  | .ret .ok m1 o1 =>
    match getLocks o1 with
    | none => .ub
    | some k =>
      if ¬ o1.size ≤ n ∧ 1 < k then
        match unlockObj o1 with
        | none => .ub
        | some o2 => .thr m1 o2
      else
        match edit m1 o1 (sizeEdit P.T n) with
        | none => .ub
        | some (m2, o2) => .ret .ok m2 o2
  | .ret _ m1 o1 => .ret .oom m1 o1
  | r => r

/-- `UnlockBuffer` (1149-1159) -/
def unlock (m : Heap α) (o : Obj α) : Res α :=
  match getLocks o with
  | none => .ub
  | some k =>
    if k = 0 then .thr m o
    else
      match unlockObj o with
      | none => .ub
      | some o1 => .ret .ok m o1

/-- `Resize` (1105-1119) -/
def resize (P : Par α) (m : Heap α) (o : Obj α) (n : Nat) (al : Al) : Res α :=
  if n = 0 then clear P m o
  else
    match lockSize P m o n al with
    | .ret .ok m1 o1 => unlock m1 o1
    | r => r

/-- `SetItem` (1177-1189) -/
def setItem (P : Par α) (m : Heap α) (o : Obj α) (k : Nat) (v : α) (al : Al) : Res α :=
  if o.size ≤ k then .ret .bounds m o
  else withInc P m o 0 al fun d => (asg1 P.T d.buf k (.val v)).map fun b => { d with buf := b }

/-- `Add(pointer, count)` (1217-1233); `Add(const _Type&)` (1211-1215) and `EmplacePtr` (1235-1247) with one element -/
def addN (P : Par α) (m : Heap α) (o : Obj α) (vs : List (Slot α)) (al : Al) : Res α :=
  if vs = [] then .ret .ok m o
  else withInc P m o vs.length al fun d => (consL P.T d.buf d.size vs).map fun b => { d with buf := b, size := d.size + vs.length }

/-- `Insert` (1249-1279) -/
def insert (P : Par α) (m : Heap α) (o : Obj α) (k : Nat) (v : α) (al : Al) : Res α :=
  if o.size < k then .ret .bounds m o
  else withInc P m o 1 al (insertEdit P.T k (.ext v) (fun _ => none) 0)

/-- `Remove` (1281-1313) -/
def remove (P : Par α) (m : Heap α) (o : Obj α) (k n : Nat) (al : Al) : Res α :=
  if n = 0 then .ret .ok m o
  else if o.size ≤ k then .ret .ok m o
  else
    let c := if n < o.size - k then n else o.size - k
    if c = o.size then clear P m o else withInc P m o 0 al (removeEdit P.T k c)

/-- an assignment to element `k`: through the pointer of `LockBufferAndSetSize`, `GetItemPtr` (1161-1167) or `operator[]` (1331-1337), which throws outside of the array -/
def write (P : Par α) (m : Heap α) (o : Obj α) (k : Nat) (v : α) : Res α :=
  if o.size ≤ k then .thr m o
  else
    match edit m o fun d => (asg1 P.T d.buf k (.val v)).map fun b => { d with buf := b } with
    | none => .ub
    | some (m1, o1) => .ret .ok m1 o1

/-- `~InternalData` (689-706); `none`: undefined, `some none`: abort -/
def destroy (P : Par α) (m : Heap α) (o : Obj α) : Option (Option (Heap α)) :=
  match getLocks o, getBuf m o with
  | some k, some b =>
    if k ≠ 0 then some none
    else
      match desN P.T b 0 o.size with
      | none => none
      | some _ => some (some (if o.w0 % 2 = 1 then m else hset m o.w0 none))
  | _, _ => none

/-! ### several arrays -/

structure St (α : Type) where
  mem : Heap α
  hs : List (Option (Obj α))

/-- a source of elements: outside memory, or `n` elements of array `j` from `off` on -/
inductive Src (α : Type) where
  | ext (l : List α)
  | of (j off n : Nat)

inductive Op (α : Type) where
  | new
  | copy (j : Nat) (al : Al)
  | moveNew (j : Nat)
  | del (i : Nat)
  | clear (i : Nat)
  | setArr (i : Nat) (src : Src α) (al : Al)
  | assign (i j : Nat) (al : Al)
  | moveAssign (i j : Nat)
  | reserve (i n : Nat) (al : Al)
  | resize (i n : Nat) (al : Al)
  | lockSize (i n : Nat) (al : Al)
  | unlock (i : Nat)
  | write (i k : Nat) (v : α)
  | setItem (i k : Nat) (v : α) (al : Al)
  | addN (i : Nat) (src : Src α) (al : Al)
  | insert (i k : Nat) (v : α) (al : Al)
  | remove (i k n : Nat) (al : Al)

inductive Out (α : Type) where
  | ub
  | abort
  | thr (s : St α)
  | ret (hr : Hr) (s : St α)

def get (s : St α) (i : Nat) : Option (Obj α) := (s.hs[i]?).join

def put (s : St α) (i : Nat) (m : Heap α) (o : Obj α) : St α := ⟨m, s.hs.set i (some o)⟩

/-- a member function of array `i` -/
def on (s : St α) (i : Nat) (f : Heap α → Obj α → Res α) : Out α :=
  match get s i with
  | none => .ub
  | some o =>
    match f s.mem o with
    | .ub => .ub
    | .thr m o' => .thr (put s i m o')
    | .ret hr m o' => .ret hr (put s i m o')

/-- the elements a source designates -/
def slots (s : St α) : Src α → Option (List (Slot α))
  | .ext l => some (l.map .val)
  | .of j off n =>
    match get s j with
    | none => none
    | some o =>
      match getBuf s.mem o with
      | none => none
      | some b => if b.length < off + n then none else some ((b.drop off).take n)

/-- move (965-984) from array `j` to array `i`, `i ≠ j` -/
def moveTo (P : Par α) (s : St α) (i j : Nat) : Out α :=
  match get s i, get s j with
  | some d, some e =>
    match getLocks d, getLocks e with
    | some kd, some ke =>
      -- 970-971; `operator=` (1416-1423) and the constructor (1076-1081) abort
      if kd ≠ 0 ∨ ke ≠ 0 then .abort
      else if e.w0 % 2 = 1 then
        match slots s (.of j 0 e.size) with
        | none => .ub
        | some vs =>
          match setArr P s.mem d vs none with
          | .ret .ok m o => .ret .ok (put s i m o)
          | .ret _ _ _ => .abort
          | _ => .ub
      else
        match destroy P s.mem d with
        | none => .ub
        | some none => .abort
        | some (some m) => .ret .ok ⟨m, (s.hs.set i (some e)).set j (some (fresh P))⟩
    | _, _ => .ub
  | _, _ => .ub

def step (P : Par α) (s : St α) : Op α → Out α
  | .new => .ret .ok { s with hs := s.hs ++ [some (fresh P)] }
  | .copy j al =>
    -- 1069-1074: an exception in the constructor leaves no array
    let s1 : St α := { s with hs := s.hs ++ [some (fresh P)] }
    match get s j with
    | none => .ub
    | some e =>
      match slots s (.of j 0 e.size) with
      | none => .ub
      | some vs =>
        match setArr P s.mem (fresh P) vs al with
        | .ub => .ub
        | .ret .ok m o => .ret .ok (put s1 s.hs.length m o)
        | _ => .thr s
  | .moveNew j => moveTo P { s with hs := s.hs ++ [some (fresh P)] } s.hs.length j
  | .del i =>
    match get s i with
    | none => .ub
    | some o =>
      match destroy P s.mem o with
      | none => .ub
      | some none => .abort
      | some (some m) => .ret .ok ⟨m, s.hs.set i none⟩
  | .clear i => on s i (clear P)
  | .setArr i src al =>
    match slots s src with
    | none => .ub
    | some vs => on s i fun m o => setArr P m o vs al
  | .assign i j al =>
    if i = j then .ret .ok s
    else
      match get s j with
      | none => .ub
      | some e =>
        match slots s (.of j 0 e.size) with
        | none => .ub
        | some vs =>
          -- 1407-1414
          match on s i fun m o => setArr P m o vs al with
          | .ret .ok s' => .ret .ok s'
          | .ret _ s' => .thr s'
          | r => r
  | .moveAssign i j => if i = j then .ret .ok s else moveTo P s i j
  | .reserve i n al => on s i fun m o => reserve P m o n al
  | .resize i n al => on s i fun m o => resize P m o n al
  | .lockSize i n al => on s i fun m o => lockSize P m o n al
  | .unlock i => on s i unlock
  | .write i k v => on s i fun m o => write P m o k v
  | .setItem i k v al => on s i fun m o => setItem P m o k v al
  | .addN i src al =>
    match slots s src with
    | none => .ub
    | some vs => on s i fun m o => addN P m o vs al
  | .insert i k v al => on s i fun m o => insert P m o k v al
  | .remove i k n al => on s i fun m o => remove P m o k n al

end Verif.Soo
