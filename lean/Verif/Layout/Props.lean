import Verif.Layout.Model
/-!
# C105: alignment

Specification: an object or atomically accessed word of alignment (width) `a` may only stand at an address that is a multiple of `a`.
On x86 and x64 the processor tolerates other addresses for most instructions; on ARM and ARM64, which the code supports (e.g. Interlocked.h 240, BitMap.h 44), atomic instructions fault there.
-/
namespace Verif.Layout

/-- the specification -/
def Aligned (a addr : Nat) : Prop := addr % a = 0

theorem up_ge (n a : Nat) (h : 0 < a) : n ≤ up n a := by
  unfold up
  have := Nat.div_add_mod (n + a - 1) a
  have := Nat.mod_lt (n + a - 1) h
  rw [Nat.mul_comm]
  omega

theorem up_mod (n a : Nat) : up n a % a = 0 := by unfold up; exact Nat.mul_mod_left _ _

theorem packed_pos {t : Ty} (h : 0 < t.align) : 0 < packed t := by unfold packed; omega

theorem endOf_ge (ts : List Ty) (h : ∀ t ∈ ts, 0 < t.align) (off : Nat) : off ≤ endOf off ts := by
  induction ts generalizing off with
  | nil => exact Nat.le_refl _
  | cons t ts ih =>
    rw [endOf]
    have h1 := up_ge off (packed t) (packed_pos (h t List.mem_cons_self))
    have h2 := ih (fun t ht => h t (List.mem_cons_of_mem _ ht)) (up off (packed t) + t.size)
    omega

theorem endOf_append (off : Nat) (as bs : List Ty) : endOf off (as ++ bs) = endOf (endOf off as) bs := by
  induction as generalizing off with
  | nil => rfl
  | cons a as ih => rw [List.cons_append, endOf, endOf, ih]

theorem alignOf_pos : ∀ ts : List Ty, 0 < alignOf ts
  | [] => Nat.one_pos
  | t :: ts => by have := alignOf_pos ts; rw [alignOf]; omega

/-- **C105, the layout**: members stand at multiples of their (packed) alignment, one behind the other without overlap, and inside of the class; no class is aligned to more than 4. -/
theorem C105_layout (as bs cs : List Ty) (t u : Ty) (h : ∀ x ∈ as ++ t :: bs ++ u :: cs, 0 < x.align) :
    Aligned (packed t) (offset as t) ∧ offset as t + t.size ≤ offset (as ++ t :: bs) u ∧
      offset (as ++ t :: bs) u + u.size ≤ (cls (as ++ t :: bs ++ u :: cs)).size ∧
      Aligned (cls (as ++ t :: bs ++ u :: cs)).align (cls (as ++ t :: bs ++ u :: cs)).size := by
  refine ⟨up_mod _ _, ?_, ?_, up_mod _ _⟩
  · have h1 : endOf 0 (as ++ t :: bs) = endOf (offset as t + t.size) bs := by rw [endOf_append, endOf]; rfl
    have h2 := endOf_ge bs (fun x hx => h x (by simp [hx])) (offset as t + t.size)
    have h3 := up_ge (endOf 0 (as ++ t :: bs)) (packed u) (packed_pos (h u (by simp)))
    unfold offset at *
    omega
  · have h1 : endOf 0 (as ++ t :: bs ++ u :: cs) = endOf (offset (as ++ t :: bs) u + u.size) cs := by rw [endOf_append, endOf]; rfl
    have h2 := endOf_ge cs (fun x hx => h x (by simp [hx])) (offset (as ++ t :: bs) u + u.size)
    have h3 := up_ge (endOf 0 (as ++ t :: bs ++ u :: cs)) (alignOf (as ++ t :: bs ++ u :: cs)) (alignOf_pos _)
    unfold cls
    dsimp only
    omega

theorem C105_pack (ts : List Ty) : (cls ts).align ≤ 4 := by
  unfold cls; dsimp only
  induction ts with
  | nil => decide
  | cons t ts ih => rw [alignOf]; unfold packed; omega

/-- the words that are not aligned: on 64-bit processors the handle of a pool wait, the lock of a cancellation source and the bits of two of the three timing wheels, on 32-bit processors the flags
of the parallel runner -/
def Bad (T : Target) (w : Word) : Prop :=
  (T.ptr = 8 ∧ (w = .hThreadPoolWait ∨ w = .callbacksLock ∨ w = .wheel1 ∨ w = .wheel3)) ∨ (T.ptr = 4 ∧ w = .fFlags64)

/-- **C105, atomic words**: in every object allocated by the library (`New`, `Alloc`: `malloc` gives multiples of two pointers) a word used atomically is aligned exactly if it is not one of `Bad`. -/
theorem C105_atomic_iff (T : Target) (hT : T.Ok) (w : Word) (base : Nat) (hb : base % (2 * T.ptr) = 0) :
    Aligned (width T w) (base + offsetOf T w) ↔ ¬ Bad T w := by
  obtain ⟨p, f, e⟩ := T
  obtain ⟨h1, h2, h3⟩ := hT
  dsimp only at h1 h2 h3 hb
  rcases h1 with rfl | rfl <;> cases w <;>
    simp [Bad, Aligned, width, offsetOf, offset, endOf, cls, alignOf, up, packed, u32, u64, bool, ptr, fn, eptr, arr, refValueL, refValue, taskEntry, timerL, asyncInfo, delegate, asyncImplL, asyncImpl,
      waitL, cancelL, taskRunner, queue, seqL, parL, bitMap, wheelL, timerManger, waitManger, threadL] <;> omega

/-- the supported compilers: MSVC for x64/ARM64 and x86/ARM, GCC for 64 and 32 bit -/
def msvc64 : Target := ⟨8, 64, 16⟩
def msvc32 : Target := ⟨4, 40, 8⟩
def gcc64 : Target := ⟨8, 32, 8⟩
def gcc32 : Target := ⟨4, 16, 4⟩

theorem C105_targets : msvc64.Ok ∧ msvc32.Ok ∧ gcc64.Ok ∧ gcc32.Ok := ⟨⟨.inr rfl, rfl, rfl⟩, ⟨.inl rfl, rfl, rfl⟩, ⟨.inr rfl, rfl, rfl⟩, ⟨.inl rfl, rfl, rfl⟩⟩

/-- **C105 fails**: wherever the objects are allocated on a 64-bit system, the lock of a cancellation source, the handle exchanged by `WaitAsyncOperation::Cancel` and the bits set for every timer
within a second are never aligned. -/
theorem C105_atomic_fails (T : Target) (hT : T.Ok) (h8 : T.ptr = 8) (base : Nat) (hb : base % 16 = 0) :
    ¬ Aligned 8 (base + offsetOf T .callbacksLock) ∧ ¬ Aligned 8 (base + offsetOf T .hThreadPoolWait) ∧ ¬ Aligned 8 (base + offsetOf T .wheel1) := by
  have hb' : base % (2 * T.ptr) = 0 := by rw [h8]; exact hb
  have key : ∀ w, width T w = 8 → Bad T w → ¬ Aligned 8 (base + offsetOf T w) := by
    intro w hw hB ha
    rw [← hw] at ha
    exact (C105_atomic_iff T hT w base hb').1 ha hB
  exact ⟨key _ h8 (.inl ⟨h8, by simp⟩), key _ h8 (.inl ⟨h8, by simp⟩), key _ h8 (.inl ⟨h8, by simp⟩)⟩

/-- concrete offsets for 64-bit MSVC: the lock of a cancellation source stands at 20, the handle at 76 -/
theorem C105_example : offsetOf msvc64 .callbacksLock = 20 ∧ offsetOf msvc64 .hThreadPoolWait = 76 ∧ offsetOf msvc64 .uRef = 8 ∧ offsetOf msvc64 .eStatus = 20 ∧
    offsetOf msvc64 .fFlags64 = 40 ∧ offsetOf msvc32 .fFlags64 = 28 := by decide

/-! ## Values of the user -/

theorem mul_al {a s : Nat} (h : s % a = 0) (i : Nat) : (i * s) % a = 0 := by
  rw [Nat.mul_mod, h, Nat.mul_zero, Nat.zero_mod]

theorem add_al {a x y : Nat} (h : x % a = 0) (h' : y % a = 0) : (x + y) % a = 0 := by
  rw [Nat.add_mod, h, h', Nat.add_zero, Nat.zero_mod]

theorem dvd_al {a b x : Nat} (h : b % a = 0) (h' : x % b = 0) : x % a = 0 :=
  Nat.mod_eq_zero_of_dvd (Nat.dvd_trans (Nat.dvd_of_mod_eq_zero h) (Nat.dvd_of_mod_eq_zero h'))

/-- **C105, arrays** (copy-on-write storage): every element is aligned if the alignment of its type divides two pointers; the size of a type is a multiple of its alignment. -/
theorem C105_array_partial (T : Target) (hT : T.Ok) (t : Ty) (ht : t.size % t.align = 0) (ha : (2 * T.ptr) % t.align = 0) (base i : Nat) (hb : base % (2 * T.ptr) = 0) :
    Aligned t.align (base + (sharedData T).size + i * t.size) := by
  have hs : (sharedData T).size % (2 * T.ptr) = 0 := by
    obtain ⟨p, f, e⟩ := T
    obtain ⟨h1, -, -⟩ := hT
    dsimp only at h1
    rcases h1 with rfl | rfl <;> simp [sharedData, cls, endOf, alignOf, up, packed, ptr]
  exact add_al (dvd_al ha (add_al hb hs)) (mul_al ht i)

/-- **C105, arrays, fails** for types aligned to more: on a 64-bit system the first element of type aligned to 32 (as AVX vectors are) is not aligned in every second block `malloc` may return. -/
theorem C105_array_fails (T : Target) (h8 : T.ptr = 8) (base : Nat) (hb : base % 32 = 16) : ¬ Aligned 32 (base + (sharedData T).size) := by
  obtain ⟨p, f, e⟩ := T
  dsimp only at h8
  subst h8
  simp [sharedData, cls, endOf, alignOf, up, packed, ptr, Aligned]
  omega

/-- **C105, strings**: every unit of 1, 2 or 4 bytes is aligned. -/
theorem C105_string (T : Target) (hT : T.Ok) (n : Nat) (hn : n = 1 ∨ n = 2 ∨ n = 4) (base i : Nat) (hb : base % (2 * T.ptr) = 0) :
    Aligned n (base + (stringData T).size + i * n) := by
  have hs : (base + (stringData T).size) % 4 = 0 := by
    obtain ⟨p, f, e⟩ := T
    obtain ⟨h1, -, -⟩ := hT
    dsimp only at h1 hb
    rcases h1 with rfl | rfl <;> simp [stringData, cls, endOf, alignOf, up, packed, ptr, u64] <;> omega
  refine add_al (dvd_al ?_ hs) (mul_al (Nat.mod_self n) i)
  rcases hn with rfl | rfl | rfl <;> rfl

/-- **C105, results of asynchronous operations**: aligned if the alignment divides a pointer. -/
theorem C105_result_partial (T : Target) (hT : T.Ok) (r : Ty) (h0 : 0 < r.align) (ha : T.ptr % r.align = 0) (base : Nat) (hb : base % (2 * T.ptr) = 0) :
    Aligned r.align (base + offset (asyncImplL T) r) := by
  have h1 : endOf 0 (asyncImplL T) % T.ptr = 0 := by
    obtain ⟨p, f, e⟩ := T
    obtain ⟨h1, h2, h3⟩ := hT
    dsimp only at h1 h2 h3
    rcases h1 with rfl | rfl <;>
      simp [asyncImplL, asyncInfo, refValue, refValueL, delegate, cls, endOf, alignOf, up, packed, ptr, eptr, u32] <;> omega
  have h2 : offset (asyncImplL T) r = endOf 0 (asyncImplL T) := by
    have h4 : T.ptr % packed r = 0 := by
      have hp : T.ptr = 4 ∨ T.ptr = 8 := hT.ptr
      have hle : r.align ≤ T.ptr := Nat.le_of_dvd (by omega) (Nat.dvd_of_mod_eq_zero ha)
      unfold packed
      by_cases hlt : r.align ≤ 4
      · rw [Nat.min_eq_left hlt]; exact ha
      · rw [Nat.min_eq_right (by omega)]; omega
    have h5 : endOf 0 (asyncImplL T) % packed r = 0 := dvd_al h4 h1
    unfold offset up
    have hp := packed_pos h0
    generalize packed r = a at *
    generalize endOf 0 (asyncImplL T) = n at *
    obtain ⟨k, rfl⟩ := Nat.dvd_of_mod_eq_zero h5
    rw [show a * k + a - 1 = a * k + (a - 1) by omega, Nat.mul_add_div hp, Nat.div_eq_of_lt (by omega), Nat.add_zero, Nat.mul_comm]
  rw [h2]
  refine dvd_al ha (add_al ?_ h1)
  rw [Nat.mul_comm] at hb
  exact dvd_al (Nat.mul_mod_right _ _) hb

/-- **C105, results, fails** for types aligned to 16 with MSVC for 64 bit: never aligned. -/
theorem C105_result_fails (r : Ty) (ha : r.align = 16) (base : Nat) (hb : base % 16 = 0) : ¬ Aligned 16 (base + offset (asyncImplL msvc64) r) := by
  have h : offset (asyncImplL msvc64) r = 72 := by
    unfold offset packed; rw [ha]; decide
  rw [h]; unfold Aligned; omega

theorem optional_size (t : Ty) : (optional t).size = t.size + 1 := by
  simp [optional, cls, endOf, alignOf, up, packed, bool]

/-- **C105, `Optional`, fails**: of two neighbours in an array of Optionals one is not aligned, wherever the array stands, whatever the type (of alignment at least 2). -/
theorem C105_optional_fails (t : Ty) (ht : t.size % t.align = 0) (ha : 2 ≤ t.align) (base i : Nat) :
    ¬ (Aligned t.align (base + i * (optional t).size) ∧ Aligned t.align (base + (i + 1) * (optional t).size)) := by
  rintro ⟨h1, h2⟩
  unfold Aligned at h1 h2
  rw [optional_size] at h1 h2
  rw [show base + (i + 1) * (t.size + 1) = (base + i * (t.size + 1)) + (t.size + 1) by rw [Nat.add_mul]; omega, Nat.add_mod, h1, Nat.zero_add, Nat.mod_mod, Nat.add_mod, ht, Nat.zero_add, Nat.mod_mod] at h2
  rw [Nat.mod_eq_of_lt (by omega)] at h2
  omega

/-- the compiler may place an `Optional` anywhere, it has no alignment of its own -/
theorem C105_optional_align (t : Ty) : (optional t).align = 1 := by simp [optional, cls, alignOf, packed, bool]

/-- an `Optional` of a type without alignment is always right -/
theorem C105_optional_partial (t : Ty) (ha : t.align = 1) (base : Nat) : Aligned t.align base := by rw [ha]; exact Nat.mod_one _

/-- **C105, arrays with small object optimisation**: the elements kept inside are aligned if the array object is and the alignment divides two pointers. -/
theorem C105_soo_partial (T : Target) (hT : T.Ok) (t : Ty) (ht : t.size % t.align = 0) (ha : (2 * T.ptr) % t.align = 0) (base i : Nat) (hb : base % t.align = 0) :
    Aligned t.align (base + offset (sooL T) ⟨1, 1⟩ + i * t.size) := by
  have hs : offset (sooL T) ⟨1, 1⟩ = 2 * T.ptr := by
    obtain ⟨p, f, e⟩ := T
    obtain ⟨h1, -, -⟩ := hT
    dsimp only at h1
    rcases h1 with rfl | rfl <;> simp [sooL, offset, endOf, up, packed, ptr]
  rw [hs]
  exact add_al (add_al hb ha) (mul_al ht i)

/-- **C105, small object optimisation, fails**: on a 64-bit system the array object itself is aligned to 4 only, whatever its elements are, and at such an address elements of alignment 8 are not aligned. -/
theorem C105_soo_fails (T : Target) (h8 : T.ptr = 8) (t : Ty) (n : Nat) (ha : t.align = 8) :
    (soo T t n).align = 4 ∧ ∀ base, base % 8 = 4 → ¬ Aligned t.align (base + offset (sooL T) ⟨1, 1⟩) := by
  obtain ⟨p, f, e⟩ := T
  dsimp only at h8
  subst h8
  refine ⟨by simp [soo, cls, alignOf, packed, ptr], fun base hb => ?_⟩
  rw [ha]
  simp [sooL, offset, endOf, up, packed, ptr, Aligned]
  omega

/-- non-vacuity: `double` (8 bytes) in each of the places -/
theorem C105_value_example : Aligned 8 (1024 + (sharedData msvc64).size + 3 * 8) ∧ Aligned 8 (1024 + offset (asyncImplL msvc64) ⟨8, 8⟩) ∧ ¬ Aligned 8 (1024 + 1 * (optional ⟨8, 8⟩).size) := by
  refine ⟨?_, ?_, ?_⟩ <;> unfold Aligned <;> decide

end Verif.Layout
