/-!
# Model of the copy-on-write `Array` (include/YY/Base/Containers/Array.h 63-600, 1053-1424; ConstructorPolicy.h)

A heap of storage blocks with slots for elements, and a list of Array objects (handles) pointing to blocks.

Simplifications:
* one element type at a time: `T.triv = true` stands for a type that is trivially constructible, copyable and destructible (the `memcpy`/`memmove`/`memset` branches), `false` for a type with its own
  constructors, assignment and destructor (the loop branches); element operations do not throw;
* `size_t` arithmetic does not wrap (`Nat`); single threaded (the interlocked updates of `iRef` are plain updates);
* the allocator is an oracle: every operation that may allocate receives its answer `Al` (failure or an address);
* address 0 stands for the static read-only `s_Empty` (238-248);
* null pointer arguments with a count (126-129, 1222-1223) and `Sort` are left out.

Undefined behaviour (`ub`): access to a freed block or outside the buffer, writing the static block, overlapping `memcpy`, and for types with own constructors: construction over a live element, use or
destruction of a slot without one.
-/
namespace Verif.Arr

/-- a slot of the buffer: no object, a moved-from object, or an element with its value -/
inductive Slot (α : Type) where
  | raw
  | moved
  | val (a : α)
deriving DecidableEq

def Slot.alive {α} : Slot α → Bool
  | .raw => false
  | _ => true

/-- the element type; `z` is the value-initialised element -/
structure Ty (α : Type) where
  triv : Bool
  z : α

abbrev Buf (α : Type) := List (Slot α)

/-- `SharedData` (221-231) with its buffer; the capacity is the length of the buffer -/
structure Blk (α : Type) where
  iRef : Int
  size : Nat
  buf : Buf α
deriving DecidableEq

/-- the elements -/
def Blk.content {α} (d : Blk α) : List (Slot α) := d.buf.take d.size

/-- `numeric_limits<int_t>::max()` (240) -/
def imax : Int := 9223372036854775807

def emptyBlk {α} : Blk α := ⟨imax, 0, []⟩

/-- `IsReadOnly` (250-253), `IsShared` (285-288), `IsLocked` (298-301) -/
def Blk.isReadOnly {α} (d : Blk α) : Prop := d.iRef = imax
def Blk.isShared {α} (d : Blk α) : Prop := 1 < d.iRef
def Blk.isLocked {α} (d : Blk α) : Prop := d.iRef < 0
instance {α} (d : Blk α) : Decidable d.isReadOnly := inferInstanceAs (Decidable (d.iRef = imax))
instance {α} (d : Blk α) : Decidable d.isShared := inferInstanceAs (Decidable (1 < d.iRef))
instance {α} (d : Blk α) : Decidable d.isLocked := inferInstanceAs (Decidable (d.iRef < 0))

/-- `GetLockedCount` (290-296) -/
def Blk.locks {α} (d : Blk α) : Nat := (-d.iRef).toNat

abbrev Mem (α : Type) := Nat → Option (Blk α)
def upd {α} (m : Mem α) (a : Nat) (v : Option (Blk α)) : Mem α := fun b => if b = a then v else m b

/-! ### ConstructorPolicy.h: one element, then ranges -/

section
variable {α : Type} (T : Ty α)

/-- placement new with the value `v` -/
def cons1 (b : Buf α) (k : Nat) (v : Slot α) : Option (Buf α) :=
  match b[k]? with
  | none => none
  | some old => if T.triv || (!old.alive && v.alive) then some (b.set k v) else none

/-- assignment -/
def asg1 (b : Buf α) (k : Nat) (v : Slot α) : Option (Buf α) :=
  match b[k]? with
  | none => none
  | some old => if T.triv || (old.alive && v.alive) then some (b.set k v) else none

/-- destructor call -/
def des1 (b : Buf α) (k : Nat) : Option (Buf α) :=
  if T.triv then some b
  else
    match b[k]? with
    | none => none
    | some old => if old.alive then some (b.set k .raw) else none

/-- `CopyConstructor` (49-67), and `Constructor` (14-27) with a list of value-initialised elements -/
def consL (b : Buf α) (k : Nat) : List (Slot α) → Option (Buf α)
  | [] => some b
  | v :: vs => match cons1 T b k v with
    | none => none
    | some b => consL b (k + 1) vs

/-- `Copy` (90-108) -/
def asgL (b : Buf α) (k : Nat) : List (Slot α) → Option (Buf α)
  | [] => some b
  | v :: vs => match asg1 T b k v with
    | none => none
    | some b => asgL b (k + 1) vs

/-- `Destructor` (69-88) -/
def desN (b : Buf α) (k : Nat) : Nat → Option (Buf α)
  | 0 => some b
  | n + 1 => match des1 T b k with
    | none => none
    | some b => desN b (k + 1) n

/-- `*dst = std::move(*src)` -/
def mv1 (b : Buf α) (dst src : Nat) : Option (Buf α) :=
  match b[src]? with
  | none => none
  | some v => asg1 T (b.set src .moved) dst v

/-- the forward loop (136-139) -/
def mvFwd (b : Buf α) (dst src : Nat) : Nat → Option (Buf α)
  | 0 => some b
  | n + 1 => match mv1 T b dst src with
    | none => none
    | some b => mvFwd b (dst + 1) (src + 1) n

/-- the backward loop (125-132) -/
def mvBwd (b : Buf α) (dst src : Nat) : Nat → Option (Buf α)
  | 0 => some b
  | n + 1 => match mv1 T b (dst + n) (src + n) with
    | none => none
    | some b => mvBwd b dst src n

/-- `Move` (110-142) -/
def move (b : Buf α) (dst first last : Nat) : Option (Buf α) :=
  if T.triv then (if b.length < last then none else asgL T b dst ((b.drop first).take (last - first)))
  else if dst = first then some b
  else if first > dst ∧ dst < last then mvBwd T b dst first (last - first)
  else mvFwd T b dst first (last - first)

end

/-! ### SharedData -/

/-- the allocator's answer -/
abbrev Al := Option Nat

inductive Hr where
  | ok | oom | bounds
deriving DecidableEq, Repr

inductive Res (α : Type) where
  | ub
  | thr (m : Mem α) (p : Nat)
  | ret (hr : Hr) (m : Mem α) (p : Nat)

section
variable {α : Type}

/-- `(n + 15) & ~15` -/
def round16 (n : Nat) : Nat := (n + 15) / 16 * 16

/-- `AddRef` (255-267); outer `none`: dead block, inner `none`: exception -/
def addRef (m : Mem α) (a : Nat) : Option (Option (Mem α)) :=
  match m a with
  | none => none
  | some d =>
    if d.isReadOnly then some (some m)
    else if d.iRef < 1 then some none
    else some (some (upd m a (some { d with iRef := d.iRef + 1 })))

/-- `Release` (269-283) with `Free` (469-476), which destroys the elements -/
def release (T : Ty α) (m : Mem α) (a : Nat) : Option (Mem α) :=
  match m a with
  | none => none
  | some d =>
    if d.isReadOnly then some m
    else if 0 < d.iRef ∧ d.iRef - 1 ≠ 0 then some (upd m a (some { d with iRef := d.iRef - 1 }))
    else match desN T d.buf 0 d.size with
      | none => none
      | some _ => some (upd m a none)

/-- `Lock` (307-333); `none`: exception -/
def lockBlk (d : Blk α) : Option (Blk α) :=
  if d.isReadOnly then some d
  else if 1 < d.iRef ∨ d.iRef = 0 then none
  else some { d with iRef := if d.iRef = 1 then -1 else d.iRef - 1 }

/-- `Unlock` (339-359); `none`: exception -/
def unlockBlk (d : Blk α) : Option (Blk α) :=
  if d.isReadOnly then some d
  else if 0 < d.iRef then none
  else some { d with iRef := if d.iRef = -1 then 1 else d.iRef + 1 }

/-- `Alloc` (435-452); `none`: out of memory -/
def alloc (m : Mem α) (n : Nat) (al : Al) : Option (Mem α × Nat) :=
  if round16 n = 0 then some (m, 0)
  else match al with
    | none => none
    | some q => some (upd m q (some ⟨1, 0, List.replicate (round16 n) .raw⟩), q)

/-- `Clone` (454-467) of block `d`; inner `none`: out of memory, outer `none`: undefined -/
def clone (T : Ty α) (m : Mem α) (d : Blk α) (n : Nat) (al : Al) : Option (Option (Mem α × Nat)) :=
  match alloc m (if n < d.size then d.size else n) al with
  | none => some none
  | some (m1, q) =>
    match m1 q with
    | none => none
    | some e =>
      match consL T e.buf 0 (d.buf.take d.size) with
      | none => none
      | some b => if e.size = d.size then some (some (m1, q)) else if q = 0 then none else some (some (upd m1 q (some { e with buf := b, size := d.size }), q))

/-- `ReAlloc` (389-433) of the block `p` with contents `d`, which is neither shared nor read-only: the elements go to address `q` (for a trivially copyable type possibly the same address), the old
block is freed. For other types the code calls its own `Alloc` with a number of bytes (419) and so gets more memory than it records. -/
inductive ReRes (α : Type) where
  | thr
  | oom
  | ok (m : Mem α) (q : Nat)

def realloc (m : Mem α) (p : Nat) (d : Blk α) (n : Nat) (al : Al) : ReRes α :=
  if n ≤ d.buf.length then .ok m p
  else if d.isLocked then .thr
  else match al with
    | none => .oom
    | some q => .ok (upd (upd m p none) q (some { d with buf := d.buf ++ List.replicate (round16 n - d.buf.length) .raw })) q

/-- `Lock` of the handle's block at the end of 518-580 -/
def lockAt (m : Mem α) (p : Nat) : Res α :=
  match m p with
  | none => .ub
  | some d => match lockBlk d with
    | none => .thr m p
    | some d' => .ret .ok (if p = 0 then m else upd m p (some d')) p

/-- the common part of `LockInternalData` (518-546) and `LockInternalDataIncrement` (548-580): the capacity asked for when the block is shared / when it is not -/
def acquire (T : Ty α) (m : Mem α) (p : Nat) (d : Blk α) (need grow : Nat) (al : Al) : Res α :=
  if d.isShared then
    match clone T m d need al with
    | none => .ub
    | some none => .ret .oom m p
    | some (some (m1, q)) =>
      match release T m1 p with
      | none => .ub
      | some m2 => lockAt m2 q
  else if d.buf.length < grow then
    match realloc m p d grow al with
    | .thr => .thr m p
    | .oom => .ret .oom m p
    | .ok m1 q => lockAt m1 q
  else lockAt m p

/-- `GetNewCapacity` (588-599) -/
def newCapacity (cap need : Nat) : Nat :=
  if need ≤ cap then cap else if need ≤ cap + cap / 2 then cap + cap / 2 else need

/-- change of the locked block `p` by `f` (none: undefined), then `Unlock` -/
def finish (m : Mem α) (p : Nat) (f : Blk α → Option (Blk α)) : Res α :=
  match m p with
  | none => .ub
  | some d =>
    match f d with
    | none => .ub
    | some d' =>
      -- the static block is not written (`SetSize` 371-377 writes only a different size)
      if p = 0 then (if d'.size = 0 then .ret .ok m p else .ub)
      else match unlockBlk d' with
        | none => .thr (upd m p (some d')) p
        | some d'' => .ret .ok (upd m p (some d'')) p

/-- lock, change, unlock -/
def withLock (T : Ty α) (m : Mem α) (p : Nat) (d : Blk α) (need grow : Nat) (al : Al) (f : Mem α → Nat → Blk α → Option (Blk α)) : Res α :=
  match acquire T m p d need grow al with
  | .ret .ok m1 q => finish m1 q (f m1 q)
  | r => r

/-- `LockInternalDataIncrement(inc)`, change, unlock -/
def withInc (T : Ty α) (m : Mem α) (p : Nat) (inc : Nat) (al : Al) (f : Mem α → Nat → Blk α → Option (Blk α)) : Res α :=
  match m p with
  | none => .ub
  | some d => withLock T m p d (d.size + inc) (newCapacity d.buf.length (d.size + inc)) al f

/-! ### arguments that may point into a block -/

/-- a `const _Type&` argument -/
inductive Item (α : Type) where
  | ext (v : α)
  | inn (a off : Nat)

/-- a `const _Type*` argument with a count -/
inductive Ptr (α : Type) where
  | ext (l : List α)
  | inn (a off n : Nat)

def Ptr.len : Ptr α → Nat
  | .ext l => l.length
  | .inn _ _ n => n

/-- the elements to copy lie in block `q` itself -/
def Ptr.clash (q : Nat) : Ptr α → Bool
  | .ext _ => false
  | .inn a _ n => a = q && 0 < n

/-- read the argument while block `q` has the buffer `b` -/
def Item.read (m : Mem α) (q : Nat) (b : Buf α) : Item α → Option (Slot α)
  | .ext v => some (.val v)
  | .inn a off =>
    let src := if a = q then some b else (m a).map (·.buf)
    match src with
    | none => none
    | some l => l[off]?

def Ptr.read (m : Mem α) (q : Nat) (b : Buf α) : Ptr α → Option (List (Slot α))
  | .ext l => some (l.map .val)
  | .inn a off n =>
    let src := if a = q then some b else (m a).map (·.buf)
    match src with
    | none => none
    | some l => if l.length < off + n then none else some ((l.drop off).take n)

/-! ### member functions -/

/-- `Clear` (103-122) -/
def clear (T : Ty α) (m : Mem α) (p : Nat) : Res α :=
  match m p with
  | none => .ub
  | some d =>
    if d.isShared then
      match release T m p with
      | none => .ub
      | some m => .ret .ok m 0
    else if d.size ≠ 0 then
      if d.isLocked then .thr m p
      else match desN T d.buf 0 d.size with
        | none => .ub
        | some b => .ret .ok (upd m p (some { d with buf := b, size := 0 })) p
    else .ret .ok m p

/-- the copying part of `SetArray` (171-183); `memcpy` within the same block is undefined (for other element types the loop would do, which is not modelled) -/
def setEdit (T : Ty α) (src : Ptr α) (m : Mem α) (q : Nat) (d : Blk α) : Option (Blk α) :=
  if src.clash q then none
  else match src.read m q d.buf with
    | none => none
    | some vs =>
      match asgL T d.buf 0 (vs.take d.size) with
      | none => none
      | some b =>
        match (if src.len ≤ d.size then desN T b src.len (d.size - src.len) else consL T b d.size (vs.drop d.size)) with
        | none => none
        | some b => some { d with buf := b, size := src.len }

/-- `SetArray(pointer, count)` (124-186) -/
def setArr (T : Ty α) (m : Mem α) (p : Nat) (src : Ptr α) (al : Al) : Res α :=
  match m p with
  | none => .ub
  | some d =>
    if d.isShared then
      match alloc m src.len al with
      | none => .ret .oom m p
      | some (m1, q) =>
        match release T m1 p with
        | none => .ub
        | some m2 =>
          match lockAt m2 q with
          | .ret .ok m3 q => finish m3 q (setEdit T src m3 q)
          | r => r
    else if d.isLocked ∧ (src.len < d.size ∨ d.buf.length < src.len) then .thr m p
    else
      match realloc m p d src.len al with
      | .thr => .thr m p
      | .oom => .ret .oom m p
      | .ok m1 q =>
        match lockAt m1 q with
        | .ret .ok m2 q => finish m2 q (setEdit T src m2 q)
        | r => r

/-- `Reserve` (1095-1103) -/
def reserve (T : Ty α) (m : Mem α) (p n : Nat) (al : Al) : Res α :=
  match m p with
  | none => .ub
  | some d => withLock T m p d n n al (fun _ _ d => some d)

/-- the elements are constructed or destroyed (1129-1145) -/
def sizeEdit (T : Ty α) (n : Nat) (d : Blk α) : Option (Blk α) :=
  match (if d.size ≤ n then consL T d.buf d.size (List.replicate (n - d.size) (.val T.z)) else desN T d.buf n (d.size - n)) with
  | none => none
  | some b => some { d with buf := b, size := n }

/-- `LockBufferAndSetSize` (1121-1147): the buffer stays locked -/
def lockSize (T : Ty α) (m : Mem α) (p n : Nat) (al : Al) : Res α :=
  match m p with
  | none => .ub
  | some d =>
    match acquire T m p d n n al with
    | .ret .ok m1 q =>
      match m1 q with
      | none => .ub
      | some d1 =>
        if ¬ d1.size ≤ n ∧ 1 < d1.locks then
          match unlockBlk d1 with
          | none => .thr m1 q
          | some d2 => .thr (if q = 0 then m1 else upd m1 q (some d2)) q
        else match sizeEdit T n d1 with
          | none => .ub
          | some d2 => if q = 0 then (if d2.size = 0 then .ret .ok m1 q else .ub) else .ret .ok (upd m1 q (some d2)) q
    | r => r

/-- `UnlockBuffer` (1149-1159) -/
def unlock (m : Mem α) (p : Nat) : Res α :=
  match m p with
  | none => .ub
  | some d =>
    if ¬ d.isLocked then .thr m p
    else match unlockBlk d with
      | none => .thr m p
      | some d' => .ret .ok (upd m p (some d')) p

/-- `Resize` (1105-1119) -/
def resize (T : Ty α) (m : Mem α) (p n : Nat) (al : Al) : Res α :=
  if n = 0 then clear T m p
  else match lockSize T m p n al with
    | .ret .ok m1 q => unlock m1 q
    | r => r

/-- `SetItem` (1177-1189) -/
def setItem (T : Ty α) (m : Mem α) (p k : Nat) (v : Item α) (al : Al) : Res α :=
  match m p with
  | none => .ub
  | some d =>
    if d.size ≤ k then .ret .bounds m p
    else withInc T m p 0 al (fun m1 q d1 =>
      match v.read m1 q d1.buf with
      | none => none
      | some x => (asg1 T d1.buf k x).map fun b => { d1 with buf := b })

/-- `Add(const _Type&)` (1211-1215), `EmplacePtr` (1236-1247): the argument is passed by value -/
def add (T : Ty α) (m : Mem α) (p : Nat) (v : α) (al : Al) : Res α :=
  withInc T m p 1 al (fun _ _ d1 => (cons1 T d1.buf d1.size (.val v)).map fun b => { d1 with buf := b, size := d1.size + 1 })

/-- `Add(pointer, count)` (1217-1233) -/
def addN (T : Ty α) (m : Mem α) (p : Nat) (src : Ptr α) (al : Al) : Res α :=
  if src.len = 0 then .ret .ok m p
  else withInc T m p src.len al (fun m1 q d1 =>
    match src.read m1 q d1.buf with
    | none => none
    | some vs => (consL T d1.buf d1.size vs).map fun b => { d1 with buf := b, size := d1.size + src.len })

/-- the shifting and storing part of `Insert` (1260-1275) -/
def insertEdit (T : Ty α) (k : Nat) (v : Item α) (m : Mem α) (q : Nat) (d : Blk α) : Option (Blk α) :=
  if k = d.size then
    match v.read m q d.buf with
    | none => none
    | some x => (cons1 T d.buf d.size x).map fun b => { d with buf := b, size := d.size + 1 }
  else
    match d.buf[d.size - 1]? with
    | none => none
    | some l =>
      match cons1 T (if T.triv then d.buf else d.buf.set (d.size - 1) .moved) d.size l with
      | none => none
      | some b =>
        match move T b (k + 1) k (d.size - 1) with
        | none => none
        | some b =>
          match v.read m q b with
          | none => none
          | some x => (asg1 T b k x).map fun b => { d with buf := b, size := d.size + 1 }

/-- `Insert` (1249-1279) -/
def insert (T : Ty α) (m : Mem α) (p k : Nat) (v : Item α) (al : Al) : Res α :=
  match m p with
  | none => .ub
  | some d =>
    if d.size < k then .ret .bounds m p
    else withInc T m p 1 al (insertEdit T k v)

/-- the shifting part of `Remove` (1304-1309) -/
def removeEdit (T : Ty α) (k n : Nat) (d : Blk α) : Option (Blk α) :=
  match move T d.buf k (k + n) d.size with
  | none => none
  | some b => (desN T b (d.size - n) n).map fun b => { d with buf := b, size := d.size - n }

/-- `Remove` (1281-1313) -/
def remove (T : Ty α) (m : Mem α) (p k n : Nat) (al : Al) : Res α :=
  match m p with
  | none => .ub
  | some d =>
    if n = 0 then .ret .ok m p
    else if d.size ≤ k then .ret .ok m p
    else
      let c := if n < d.size - k then n else d.size - k
      if c = d.size then clear T m p
      else withInc T m p 0 al (fun _ _ d1 => removeEdit T k c d1)

/-- store through the pointer returned by `LockBufferAndSetSize` (an assignment to element `k`) -/
def write (T : Ty α) (m : Mem α) (p k : Nat) (v : α) : Res α :=
  match m p with
  | none => .ub
  | some d =>
    if p = 0 ∨ d.size ≤ k then .ub
    else match asg1 T d.buf k (.val v) with
      | none => .ub
      | some b => .ret .ok (upd m p (some { d with buf := b })) p

/-- `SetArray(const AllocPolicyArray&)` (188-204) from the handle on block `a`: `thr` after `AddRef` when the own block is locked (`Attach`, 485-499) -/
def assign (T : Ty α) (m : Mem α) (p a : Nat) (al : Al) : Res α :=
  if p = a then .ret .ok m p
  else match m a with
    | none => .ub
    | some e =>
      if e.isLocked then setArr T m p (.inn a 0 e.size) al
      else match addRef m a with
        | none => .ub
        | some none => .thr m p
        | some (some m1) =>
          match m1 p with
          | none => .ub
          | some d =>
            if d.isLocked then .thr m1 p
            else match release T m1 p with
              | none => .ub
              | some m2 => .ret .ok m2 a

end

/-! ### programs -/

/-- source arguments of a program: external memory, or part of the elements of a handle -/
inductive Src (α : Type) where
  | ext (l : List α)
  | of (h off n : Nat)
inductive Src1 (α : Type) where
  | ext (v : α)
  | of (h off : Nat)

structure St (α : Type) where
  mem : Mem α
  /-- the Array objects; `none`: destroyed -/
  hs : List (Option Nat)

inductive Op (α : Type) where
  | new
  | copy (j : Nat) (al : Al)
  | moveNew (j : Nat)
  | del (i : Nat)
  | clear (i : Nat)
  | setArr (i : Nat) (src : Src α) (al : Al)
  | assign (i j : Nat) (al : Al)
  | moveAssign (i j : Nat)
  | reserve (i n : Nat) (al : Al)
  | resize (i n : Nat) (al : Al)
  | lock (i n : Nat) (al : Al)
  | unlock (i : Nat)
  | write (i k : Nat) (v : α)
  | setItem (i k : Nat) (v : Src1 α) (al : Al)
  | add (i : Nat) (v : α) (al : Al)
  | addN (i : Nat) (src : Src α) (al : Al)
  | insert (i k : Nat) (v : Src1 α) (al : Al)
  | remove (i k n : Nat) (al : Al)

inductive Out (α : Type) where
  | ub
  /-- an exception leaves a `noexcept` function -/
  | abort
  | thr (s : St α)
  | ret (hr : Hr) (s : St α)

section
variable {α : Type}

def onHandle (s : St α) (i : Nat) (f : Mem α → Nat → Res α) : Out α :=
  match s.hs[i]? with
  | some (some p) =>
    match f s.mem p with
    | .ub => .ub
    | .thr m p => .thr ⟨m, s.hs.set i (some p)⟩
    | .ret hr m p => .ret hr ⟨m, s.hs.set i (some p)⟩
  | _ => .ub

def ptrOf (s : St α) : Src α → Option (Ptr α)
  | .ext l => some (.ext l)
  | .of h off n =>
    match s.hs[h]? with
    | some (some a) => some (.inn a off n)
    | _ => none

def itemOf (s : St α) : Src1 α → Option (Item α)
  | .ext v => some (.ext v)
  | .of h off =>
    match s.hs[h]? with
    | some (some a) => some (.inn a off)
    | _ => none

def step (T : Ty α) (s : St α) : Op α → Out α
  -- 74-77
  | .new => .ret .ok ⟨s.mem, s.hs ++ [some 0]⟩
  -- 1069-1074: the new object is empty, then SetArray; the object does not exist after an exception
  | .copy j al =>
    match s.hs[j]? with
    | some (some a) =>
      match assign T s.mem 0 a al with
      | .ub => .ub
      | .thr m _ => .thr ⟨m, s.hs⟩
      | .ret .ok m p => .ret .ok ⟨m, s.hs ++ [some p]⟩
      | .ret _ m _ => .thr ⟨m, s.hs⟩
    | _ => .ub
  -- 1076-1081, 206-213; `noexcept`
  | .moveNew j =>
    match s.hs[j]? with
    | some (some a) =>
      match s.mem a with
      | none => .ub
      | some e => if e.isLocked then .abort else .ret .ok ⟨s.mem, s.hs.set j (some 0) ++ [some a]⟩
    | _ => .ub
  -- 79-83
  | .del i =>
    match s.hs[i]? with
    | some (some p) =>
      match release T s.mem p with
      | none => .ub
      | some m => .ret .ok ⟨m, s.hs.set i none⟩
    | _ => .ub
  | .clear i => onHandle s i (clear T)
  | .setArr i src al =>
    match ptrOf s src with
    | none => .ub
    | some q => onHandle s i (fun m p => setArr T m p q al)
  | .assign i j al =>
    match s.hs[j]? with
    | some (some a) => onHandle s i (fun m p => assign T m p a al)
    | _ => .ub
  -- 1416-1423, 206-213, 485-511; `noexcept`
  | .moveAssign i j =>
    match s.hs[i]?, s.hs[j]? with
    | some (some p), some (some a) =>
      if p = a then .ret .ok s
      else
        match s.mem a, s.mem p with
        | some e, some d =>
          if e.isLocked ∨ d.isLocked then .abort
          else
            match release T s.mem p with
            | none => .ub
            | some m => .ret .ok ⟨m, (s.hs.set j (some 0)).set i (some a)⟩
        | _, _ => .ub
    | _, _ => .ub
  | .reserve i n al => onHandle s i (fun m p => reserve T m p n al)
  | .resize i n al => onHandle s i (fun m p => resize T m p n al)
  | .lock i n al => onHandle s i (fun m p => lockSize T m p n al)
  | .unlock i => onHandle s i unlock
  | .write i k v => onHandle s i (fun m p => write T m p k v)
  | .setItem i k v al =>
    match itemOf s v with
    | none => .ub
    | some x => onHandle s i (fun m p => setItem T m p k x al)
  | .add i v al => onHandle s i (fun m p => add T m p v al)
  | .addN i src al =>
    match ptrOf s src with
    | none => .ub
    | some q => onHandle s i (fun m p => addN T m p q al)
  | .insert i k v al =>
    match itemOf s v with
    | none => .ub
    | some x => onHandle s i (fun m p => insert T m p k x al)
  | .remove i k n al => onHandle s i (fun m p => remove T m p k n al)

end

end Verif.Arr
