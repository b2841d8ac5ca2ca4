import Verif.ErrCode.Model
/-!
# C80 – error codes and narrowing casts

Specification used here: an HRESULT is a failure exactly when bit 31 of its 32-bit pattern is set; a Win32 error `s` in `1 … 65535` has the
HRESULT with the pattern `0x80070000 + s`.
-/
namespace Verif.ErrCode

/-- the unsigned 32-bit pattern of an HRESULT -/
def pattern (hr : Int) : Int := hr % 4294967296

/-- the values a 32-bit `LSTATUS` can have -/
def Is32 (x : Int) : Prop := -2147483648 ≤ x ∧ x ≤ 2147483647

theorem or_eq (s : Nat) : (s &&& 0x0000FFFF) ||| (7 <<< 16) ||| 0x80000000 = s % 65536 + 0x80070000 := by
  have h : s % 65536 < 2 ^ 16 := by omega
  have e1 : s &&& 0x0000FFFF = s % 65536 := Nat.and_two_pow_sub_one_eq_mod s 16
  rw [e1, Nat.or_assoc]
  have e2 : (7 <<< 16 ||| 0x80000000 : Nat) = 2 ^ 16 * 0x8007 := by decide
  rw [e2, Nat.or_comm, ← Nat.two_pow_add_eq_or_of_lt h]
  omega

theorem fromStatus_pos (p : Plat) (s : Int) (h : 0 < s) :
    fromStatus p s = toSigned p.bits (((s.toNat % 65536 : Nat) : Int) + 0x80070000) := by
  unfold fromStatus
  rw [if_neg (by omega), if_neg (by omega), or_eq]
  congr 1

theorem sOk_zero (p : Plat) : value p .sOk = 0 := by cases p <;> decide

/-- **C80** (Windows): the conversion of a status yields a success code exactly for the status 0, and then it is `S_OK`. -/
theorem C80_failed (s : Int) (hs : Is32 s) :
    (failed (fromStatus .win s) = true ↔ s ≠ 0) ∧ (fromStatus .win s = 0 ↔ s = 0) ∧ Is32 (fromStatus .win s) ∧
      succeeded (fromStatus .win s) = !failed (fromStatus .win s) := by
  obtain ⟨h1, h2⟩ := hs
  have key : (s = 0 → fromStatus .win s = 0) ∧ (s ≠ 0 → fromStatus .win s < 0) ∧ Is32 (fromStatus .win s) := by
    by_cases h0 : s = 0
    · subst h0; exact ⟨fun _ => by decide, fun h => absurd rfl h, by unfold Is32; decide⟩
    · by_cases hp : 0 < s
      · have e := fromStatus_pos .win s hp
        simp only [toSigned, Plat.bits] at e
        refine ⟨fun h => absurd h h0, fun _ => by omega, by unfold Is32; omega⟩
      · have e : fromStatus .win s = s := by unfold fromStatus; rw [if_neg h0, if_pos (by omega)]
        refine ⟨fun h => absurd h h0, fun _ => by omega, by unfold Is32; omega⟩
  obtain ⟨k1, k2, k3⟩ := key
  refine ⟨?_, ?_, k3, ?_⟩
  · simp only [failed, decide_eq_true_eq]
    exact ⟨fun h h0 => by rw [k1 h0] at h; omega, k2⟩
  · exact ⟨fun h => Decidable.byContradiction fun h0 => by have := k2 h0; omega, k1⟩
  · unfold succeeded failed
    by_cases hlt : fromStatus .win s < 0
    · rw [decide_eq_true hlt, decide_eq_false (by omega)]; rfl
    · rw [decide_eq_false hlt, decide_eq_true (by omega)]; rfl

/-- **C80** (Windows): a Win32 error `1 … 65535` becomes the HRESULT with pattern `0x80070000 + s`; a status that already is an HRESULT
failure is passed unchanged. -/
theorem C80_value (s : Int) (hs : Is32 s) :
    (0 < s → s ≤ 65535 → pattern (fromStatus .win s) = 0x80070000 + s) ∧ (s < 0 → fromStatus .win s = s) := by
  obtain ⟨h1, h2⟩ := hs
  constructor
  · intro hp hl
    have e := fromStatus_pos .win s hp
    simp only [toSigned, Plat.bits] at e
    unfold pattern
    omega
  · intro hn
    unfold fromStatus
    rw [if_neg (by omega), if_pos (by omega)]

/-- **C80** (Windows): no two Win32 errors below 65536 share an HRESULT. -/
theorem C80_injective_partial (s t : Int) (hs : 0 ≤ s ∧ s ≤ 65535) (ht : 0 ≤ t ∧ t ≤ 65535) (h : fromStatus .win s = fromStatus .win t) : s = t := by
  have bs : Is32 s := by unfold Is32; omega
  have bt : Is32 t := by unfold Is32; omega
  have zs := (C80_failed s bs).2.1
  have zt := (C80_failed t bt).2.1
  by_cases h0 : s = 0
  · have : fromStatus .win t = 0 := by rw [← h]; exact zs.2 h0
    have := zt.1 this; omega
  · by_cases g0 : t = 0
    · have : fromStatus .win s = 0 := by rw [h]; exact zt.2 g0
      have := zs.1 this; omega
    · have e1 := (C80_value s bs).1 (by omega) hs.2
      have e2 := (C80_value t bt).1 (by omega) ht.2
      rw [h] at e1; omega

/-- The full claim fails: of a positive status only the low 16 bits are kept (65541 is taken for 5, "access denied"). -/
theorem C80_injective_fails : Is32 65541 ∧ fromStatus .win 65541 = fromStatus .win 5 := by
  refine ⟨by unfold Is32; decide, by decide +kernel⟩

/-- **C80** (Windows): the status of an NT call passed through both conversions is a failure exactly if the call failed, provided
`RtlNtStatusToDosError` maps no failing status to 0; if that function is missing, the error is `E_FAIL`. -/
theorem C80_nt (rtl : Option (Int → Int)) (st : Int) (hr : ∀ f, rtl = some f → ∀ x, x ≠ 0 → f x ≠ 0 ∧ Is32 (f x)) :
    (failed (fromStatus .win (dosError rtl st)) = true ↔ st ≠ 0) ∧
      (rtl = none → st ≠ 0 → pattern (fromStatus .win (dosError rtl st)) = 0x80004005) := by
  by_cases h0 : st = 0
  · subst h0
    refine ⟨?_, fun _ h => absurd rfl h⟩
    have e : dosError rtl 0 = 0 := by unfold dosError; rw [if_pos rfl]
    rw [e]; decide
  · cases rtl with
    | none =>
      have e : dosError none st = value .win .fail := by unfold dosError; rw [if_neg h0]
      rw [e]
      exact ⟨⟨fun _ => h0, fun _ => by decide⟩, fun _ _ => by decide⟩
    | some f =>
      have e : dosError (some f) st = f st := by unfold dosError; rw [if_neg h0]
      rw [e]
      obtain ⟨k1, k2⟩ := hr f rfl st h0
      refine ⟨?_, fun h => by cases h⟩
      rw [(C80_failed (f st) k2).1]
      exact ⟨fun _ => h0, fun _ => k1⟩

/-- **C80** (Windows): the names have different values; exactly `S_OK` and `S_FALSE` are successes.  Hence every container call that reports
an error makes the caller throw, and every error code that is not `E_PENDING` wakes a waiter. -/
theorem C80_names :
    (∀ m n : Name, value .win m = value .win n → m = n) ∧ (∀ n : Name, failed (value .win n) = true ↔ n ≠ .sOk ∧ n ≠ .sFalse) ∧
      (∀ n : Name, throwsOn .win n = true ↔ n ≠ .sOk ∧ n ≠ .sFalse) ∧ (∀ n : Name, wakes .win (value .win n) = true ↔ n ≠ .pending) := by
  refine ⟨?_, ?_, ?_, ?_⟩
  · intro m n; cases m <;> cases n <;> decide
  all_goals (intro n; cases n <;> decide)

/-- **C80** (Windows): exceptions carry failures, and a cancelled operation is distinguishable from every named code. -/
theorem C80_exceptions :
    exceptionDefault .win = value .win .unexpected ∧ failed (exceptionDefault .win) = true ∧ failed (canceledCode .win) = true ∧
      pattern (canceledCode .win) = 0x800704C7 ∧ ∀ n : Name, canceledCode .win ≠ value .win n := by
  refine ⟨by decide, by decide, by decide, by decide +kernel, ?_⟩
  intro n; cases n <;> decide

/-- The claim fails on every other platform: **no** named error code is recognised as a failure, so no container or string call that ran out
of memory or was given a bad index makes its caller throw. -/
theorem C80_names_fails (p : Plat) (hp : p ≠ .win) :
    (∀ n : Name, failed (value p n) = false ∧ throwsOn p n = false) ∧ value p .sOk = value p .sFalse ∧
      value p .pending = value p .abort ∧ value p .pending = value p .fail ∧ value p .pending = value p .bounds := by
  cases p with
  | win => exact absurd rfl hp
  | lp64 => exact ⟨fun n => by cases n <;> decide, by decide, by decide, by decide, by decide⟩
  | ilp32 => exact ⟨fun n => by cases n <;> decide, by decide, by decide, by decide, by decide⟩

/-- There a task that is completed with `E_FAIL`, `E_ABORT` or `E_BOUNDS` still counts as pending: its waiter does not wake up. -/
theorem C80_wakes_fails (p : Plat) (hp : p ≠ .win) :
    wakes p (value p .fail) = false ∧ wakes p (value p .abort) = false ∧ wakes p (value p .bounds) = false := by
  cases p with
  | win => exact absurd rfl hp
  | lp64 => exact ⟨by decide, by decide, by decide⟩
  | ilp32 => exact ⟨by decide, by decide, by decide⟩

/-- With a 64-bit `long` no positive status is ever converted to a failure, a default exception and a cancelled operation carry success
codes. -/
theorem C80_failed_fails :
    (∀ s : Int, 0 < s → s < 2 ^ 63 → failed (fromStatus .lp64 s) = false) ∧ failed (exceptionDefault .lp64) = false ∧
      failed (canceledCode .lp64) = false := by
  refine ⟨?_, by decide +kernel, by decide +kernel⟩
  intro s h1 _
  have e := fromStatus_pos .lp64 s h1
  simp only [toSigned, Plat.bits] at e
  simp only [failed, decide_eq_false_iff_not]
  omega

/-! ## SafeCast -/

/-- **C80**: `SafeCast` succeeds exactly for the values the target type can hold, then stores that very value (if a pointer was given), and
leaves the target untouched otherwise; the throwing form returns the value or throws. -/
theorem C80_cast (p : Plat) (x : Int) (o : Bool) :
    ((castU8 x o).ok = true ↔ ∃ n : Nat, n < 2 ^ 8 ∧ (n : Int) = x) ∧ ((castU16 x o).ok = true ↔ ∃ n : Nat, n < 2 ^ 16 ∧ (n : Int) = x) ∧
      (∀ n : Nat, n < 2 ^ 8 → (n : Int) = x → (castU8 x o).out = if o then some n else none) ∧
      (∀ n : Nat, n < 2 ^ 16 → (n : Int) = x → (castU16 x o).out = if o then some n else none) ∧
      ((castU8 x o).ok = false → (castU8 x o).out = none) ∧ ((castU16 x o).ok = false → (castU16 x o).out = none) ∧
      (∀ n : Nat, n < 2 ^ 8 → (n : Int) = x → castOrThrow p castU8 x = .ok (some n)) ∧
      (∀ n : Nat, n < 2 ^ 16 → (n : Int) = x → castOrThrow p castU16 x = .ok (some n)) ∧
      ((∀ n : Nat, n < 2 ^ 8 → (n : Int) ≠ x) → castOrThrow p castU8 x = .error (value p .invalidArg)) ∧
      ((∀ n : Nat, n < 2 ^ 16 → (n : Int) ≠ x) → castOrThrow p castU16 x = .error (value p .invalidArg)) := by
  have g : ∀ (b : Nat) (y : Int), (∀ n : Nat, n < b → (n : Int) ≠ y) → (y > ((b : Int) - 1) ∨ y < 0) := by
    intro b y h
    by_cases hy : y < 0
    · exact .inr hy
    · left
      have h1 := h y.toNat
      have h2 : (y.toNat : Int) = y := by omega
      have h3 : ¬ y.toNat < b := fun h4 => h1 h4 h2
      omega
  refine ⟨?_, ?_, ?_, ?_, ?_, ?_, ?_, ?_, ?_, ?_⟩
  · unfold castU8; split
    · constructor
      · intro h; cases h
      · rintro ⟨n, h1, h2⟩; omega
    · exact ⟨fun _ => ⟨x.toNat, by omega, by omega⟩, fun _ => rfl⟩
  · unfold castU16; split
    · constructor
      · intro h; cases h
      · rintro ⟨n, h1, h2⟩; omega
    · exact ⟨fun _ => ⟨x.toNat, by omega, by omega⟩, fun _ => rfl⟩
  · intro n h1 h2
    unfold castU8; rw [if_neg (by omega)]
    have : (x % 256).toNat = n := by omega
    simp [this]
  · intro n h1 h2
    unfold castU16; rw [if_neg (by omega)]
    have : (x % 65536).toNat = n := by omega
    simp [this]
  · unfold castU8; split
    · intro _; rfl
    · intro h; cases h
  · unfold castU16; split
    · intro _; rfl
    · intro h; cases h
  · intro n h1 h2
    have e : (x % 256).toNat = n := by omega
    have c : castU8 x true = ⟨true, some n⟩ := by unfold castU8; rw [if_neg (by omega)]; simp [e]
    simp [castOrThrow, c]
  · intro n h1 h2
    have e : (x % 65536).toNat = n := by omega
    have c : castU16 x true = ⟨true, some n⟩ := by unfold castU16; rw [if_neg (by omega)]; simp [e]
    simp [castOrThrow, c]
  · intro h
    have := g (2 ^ 8) x h
    have c : castU8 x true = ⟨false, none⟩ := by unfold castU8; rw [if_pos (by omega)]
    simp [castOrThrow, c]
  · intro h
    have := g (2 ^ 16) x h
    have c : castU16 x true = ⟨false, none⟩ := by unfold castU16; rw [if_pos (by omega)]
    simp [castOrThrow, c]

/-! ## Examples -/

example : pattern (fromStatus .win 5) = 0x80070005 ∧ failed (fromStatus .win 5) = true := by decide +kernel
example : fromStatus .lp64 5 = 0x80070005 ∧ failed (fromStatus .lp64 5) = false := by decide +kernel
example : pattern (fromStatus .win (dosError (some fun _ => 2) (-1073741772))) = 0x80070002 := by decide +kernel
example : castU8 255 true = ⟨true, some 255⟩ ∧ castU8 256 true = ⟨false, none⟩ ∧ castU8 (-1) true = ⟨false, none⟩ := by decide
example : castOrThrow .win castU16 70000 = .error (value .win .invalidArg) := by rfl

#print axioms C80_failed
#print axioms C80_value
#print axioms C80_injective_partial
#print axioms C80_injective_fails
#print axioms C80_nt
#print axioms C80_names
#print axioms C80_exceptions
#print axioms C80_names_fails
#print axioms C80_wakes_fails
#print axioms C80_failed_fails
#print axioms C80_cast

end Verif.ErrCode
