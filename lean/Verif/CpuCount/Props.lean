import Verif.CpuCount.Model
/-!
# C81 – the number of logical processors

Specification: `ones n x` is the number of positions below `n` at which `x` has a 1.
-/
namespace Verif.CpuCount

/-- number of set bits among the first `n` -/
def ones (n x : Nat) : Nat := (List.range n).countP fun i => x.testBit i

/-! ## Bit counting -/

/-- sum of `n` digits of `w` bits -/
def digitSum (w : Nat) : Nat → Nat → Nat
  | 0, _ => 0
  | n + 1, y => y % 2 ^ w + digitSum w n (y / 2 ^ w)

/-- the mask that keeps every other digit -/
def mask (w : Nat) : Nat → Nat
  | 0 => 0
  | n + 1 => (2 ^ w - 1) + 2 ^ (2 * w) * mask w n

def foldN (w n y : Nat) : Nat := (y &&& mask w n) + ((y >>> w) &&& mask w n)

theorem pow_pos' (w : Nat) : 0 < 2 ^ w := Nat.two_pow_pos w

theorem pow_two_mul (w : Nat) : 2 ^ (2 * w) = 2 ^ w * 2 ^ w := by rw [Nat.two_mul, Nat.pow_add]

theorem mask_lt (w : Nat) : 2 ^ w - 1 < 2 ^ (2 * w) := by
  have h := pow_pos' w
  have : 2 ^ w ≤ 2 ^ (2 * w) := Nat.pow_le_pow_right (by omega) (by omega)
  omega

theorem and_mask (w n y : Nat) : y &&& mask w (n + 1) = y % 2 ^ w + 2 ^ (2 * w) * (y / 2 ^ (2 * w) &&& mask w n) := by
  have hm := mask_lt w
  have e1 : mask w (n + 1) % 2 ^ (2 * w) = 2 ^ w - 1 := by
    rw [mask, Nat.add_mul_mod_self_left, Nat.mod_eq_of_lt hm]
  have e2 : mask w (n + 1) / 2 ^ (2 * w) = mask w n := by
    rw [mask, Nat.add_mul_div_left _ _ (pow_pos' _), Nat.div_eq_of_lt hm, Nat.zero_add]
  have key := Nat.mod_add_div (y &&& mask w (n + 1)) (2 ^ (2 * w))
  rw [Nat.and_mod_two_pow, e1, Nat.and_two_pow_sub_one_eq_mod] at key
  have e3 : (y &&& mask w (n + 1)) / 2 ^ (2 * w) = y / 2 ^ (2 * w) &&& mask w n := by
    rw [← Nat.shiftRight_eq_div_pow, Nat.shiftRight_and_distrib, Nat.shiftRight_eq_div_pow, Nat.shiftRight_eq_div_pow, e2]
  rw [e3] at key
  rw [← key]
  congr 1
  rw [pow_two_mul, Nat.mod_mul_right_mod]

theorem foldN_succ (w n y : Nat) :
    foldN w (n + 1) y = (y % 2 ^ w + y / 2 ^ w % 2 ^ w) + 2 ^ (2 * w) * foldN w n (y / 2 ^ (2 * w)) := by
  unfold foldN
  rw [and_mask, and_mask, Nat.shiftRight_eq_div_pow, Nat.shiftRight_eq_div_pow, Nat.div_div_eq_div_mul, Nat.div_div_eq_div_mul,
    Nat.mul_comm (2 ^ w) (2 ^ (2 * w)), Nat.mul_add]
  omega

theorem two_lt (w : Nat) (hw : 0 < w) (a b : Nat) : a % 2 ^ w + b % 2 ^ w < 2 ^ (2 * w) := by
  have h1 := Nat.mod_lt a (pow_pos' w)
  have h2 := Nat.mod_lt b (pow_pos' w)
  have h3 : 2 * 2 ^ w ≤ 2 ^ (2 * w) := by
    rw [pow_two_mul]
    exact Nat.mul_le_mul_right _ (by have := Nat.pow_le_pow_right (n := 2) (by omega) hw; omega)
  omega

/-- one folding step adds neighbouring digits -/
theorem foldN_digits (w : Nat) (hw : 0 < w) : ∀ n y, digitSum (2 * w) n (foldN w n y) = digitSum w (2 * n) y := by
  intro n
  induction n with
  | zero => intro y; rfl
  | succ n ih =>
    intro y
    have hl := two_lt w hw y (y / 2 ^ w)
    rw [foldN_succ, digitSum, Nat.add_mul_mod_self_left, Nat.mod_eq_of_lt hl, Nat.add_mul_div_left _ _ (pow_pos' _), Nat.div_eq_of_lt hl,
      Nat.zero_add, ih]
    show _ = digitSum w (2 * n + 1 + 1) y
    rw [digitSum, digitSum, Nat.div_div_eq_div_mul, ← pow_two_mul]
    omega

theorem foldN_lt (w : Nat) (hw : 0 < w) : ∀ n y, foldN w n y < 2 ^ (2 * w * n) := by
  intro n
  induction n with
  | zero => intro y; simp [foldN, mask]
  | succ n ih =>
    intro y
    have hl := two_lt w hw y (y / 2 ^ w)
    have h2 := ih (y / 2 ^ (2 * w))
    rw [foldN_succ, Nat.mul_add, Nat.mul_one, Nat.pow_add, Nat.mul_comm (2 ^ (2 * w * n))]
    calc _ < 2 ^ (2 * w) + 2 ^ (2 * w) * foldN w n (y / 2 ^ (2 * w)) := by omega
      _ = 2 ^ (2 * w) * (foldN w n (y / 2 ^ (2 * w)) + 1) := by rw [Nat.mul_add, Nat.mul_one]; omega
      _ ≤ _ := Nat.mul_le_mul_left _ h2

theorem fold_eq (bits w n m y : Nat) (hw : 0 < w) (hb : 2 * w * n = bits) (hm : m = mask w n) : fold bits w m y = foldN w n y := by
  unfold fold
  rw [hm, ← hb]
  exact Nat.mod_eq_of_lt (foldN_lt w hw n y)

theorem digitSum_ones : ∀ n x, digitSum 1 n x = ones n x := by
  intro n
  induction n with
  | zero => intro x; rfl
  | succ n ih =>
    intro x
    rw [digitSum, ih]
    unfold ones
    rw [List.range_succ_eq_map, List.countP_cons, List.countP_map]
    have e : ((fun i => x.testBit i) ∘ Nat.succ) = fun i => (x / 2 ^ 1).testBit i := by
      funext i
      simp [Nat.testBit_succ]
    rw [e]
    have e0 : x.testBit 0 = decide (x % 2 = 1) := Nat.testBit_zero x
    rw [e0]
    rcases Nat.mod_two_eq_zero_or_one x with h | h <;> simp [h] <;> omega

theorem digitSum_one (w y : Nat) (h : y < 2 ^ w) : digitSum w 1 y = y := by
  rw [digitSum, digitSum, Nat.mod_eq_of_lt h, Nat.add_zero]

/-- **C81**: `BitsCount32` counts the ones of every 32-bit word. -/
theorem C81_bits32 (x : Nat) : bitsCount32 x = ones 32 x := by
  unfold bitsCount32
  simp only [fold_eq 32 1 16 0x55555555 _ (by decide) rfl (by decide +kernel), fold_eq 32 2 8 0x33333333 _ (by decide) rfl (by decide +kernel),
    fold_eq 32 4 4 0x0f0f0f0f _ (by decide) rfl (by decide +kernel), fold_eq 32 8 2 0x00ff00ff _ (by decide) rfl (by decide +kernel),
    fold_eq 32 16 1 0x0000ffff _ (by decide) rfl (by decide +kernel)]
  have hl := foldN_lt 16 (by decide) 1
  rw [← digitSum_one 32 _ (hl _), foldN_digits 16 (by decide) 1, foldN_digits 8 (by decide) 2, foldN_digits 4 (by decide) 4,
    foldN_digits 2 (by decide) 8, foldN_digits 1 (by decide) 16, digitSum_ones]

theorem ones_le (n x : Nat) : ones n x ≤ n := by
  unfold ones
  have := List.countP_le_length (p := fun i => x.testBit i) (l := List.range n)
  rwa [List.length_range] at this

/-- **C81**: `BitsCount64` counts the ones of every 64-bit word. -/
theorem C81_bits64 (x : Nat) : bitsCount64 x = ones 64 x := by
  unfold bitsCount64
  simp only [fold_eq 64 1 32 0x5555555555555555 _ (by decide) rfl (by decide +kernel),
    fold_eq 64 2 16 0x3333333333333333 _ (by decide) rfl (by decide +kernel), fold_eq 64 4 8 0x0f0f0f0f0f0f0f0f _ (by decide) rfl (by decide +kernel),
    fold_eq 64 8 4 0x00ff00ff00ff00ff _ (by decide) rfl (by decide +kernel), fold_eq 64 16 2 0x0000ffff0000ffff _ (by decide) rfl (by decide +kernel),
    fold_eq 64 32 1 0x00000000ffffffff _ (by decide) rfl (by decide +kernel)]
  have hl := foldN_lt 32 (by decide) 1
  rw [← digitSum_one 64 _ (hl _), foldN_digits 32 (by decide) 1, foldN_digits 16 (by decide) 2, foldN_digits 8 (by decide) 4,
    foldN_digits 4 (by decide) 8, foldN_digits 2 (by decide) 16, foldN_digits 1 (by decide) 32, digitSum_ones]
  have := ones_le (2 * 32) x
  exact Nat.mod_eq_of_lt (by omega)

/-! ## The count -/

/-- bits of an affinity mask -/
def width (is64 : Bool) : Nat := if is64 then 64 else 32

/-- number of logical processors of a package -/
def processors (is64 : Bool) : List Nat → Nat
  | [] => 0
  | m :: ms => ones (width is64) m + processors is64 ms

/-- number of logical processors of the machine -/
def total (is64 : Bool) : List (List Nat) → Nat
  | [] => 0
  | p :: ps => processors is64 p + total is64 ps

theorem bitsCount_eq (is64 : Bool) (x : Nat) : bitsCount is64 x = ones (width is64) x := by
  cases is64
  · exact C81_bits32 x
  · exact C81_bits64 x

theorem sumMasks_eq (is64 : Bool) : ∀ ms acc, acc + processors is64 ms < 2 ^ 32 → sumMasks is64 acc ms = acc + processors is64 ms := by
  intro ms
  induction ms with
  | nil => intro acc _; rfl
  | cons m ms ih =>
    intro acc h
    simp only [processors] at h
    rw [sumMasks, bitsCount_eq, Nat.mod_eq_of_lt (by omega), ih _ (by omega), processors]
    omega

/-- **C81**: the count is at least 1 whatever the system answers. -/
theorem C81_positive (is64 : Bool) (e : Env) : 1 ≤ compute is64 e := by
  unfold compute fallback
  generalize query is64 e = n
  dsimp only
  by_cases h : n = 0
  · rw [if_pos h]; split <;> omega
  · rw [if_neg h, if_neg h]; omega

theorem fallback_pos (n k : Nat) (h : 0 < n) : fallback n k = n := by
  unfold fallback
  have h0 : ¬ n = 0 := by omega
  simp only [if_neg h0]

theorem fallback_zero (k : Nat) : fallback 0 k = max 1 k := by
  unfold fallback
  dsimp only
  rw [if_pos rfl]
  split <;> omega

/-- **C81**, partial: on a machine with one package (processor socket) all of whose queries succeed, the count is the number of its logical
processors.  Missing from the full claim: machines with several packages (`C81_count_fails`). -/
theorem C81_count_partial (is64 : Bool) (e : Env) (p : List Nat) (hp : e.packages = [p]) (h1 : e.sizeFails = false) (h2 : e.allocFails = false)
    (h3 : e.queryFails = false) (h4 : 0 < total is64 e.packages) (h5 : total is64 e.packages < 2 ^ 32) :
    compute is64 e = total is64 e.packages := by
  rw [hp] at h4 h5 ⊢
  simp only [total, Nat.add_zero] at h4 h5 ⊢
  have := sumMasks_eq is64 p 0 (by omega)
  have e1 : query is64 e = processors is64 p := by
    unfold query
    simp only [h1, h2, h3, hp, this, Bool.false_eq_true, if_false]
    omega
  rw [compute, e1, fallback_pos _ _ h4]

/-- If the queries fail, the answer of `GetNativeSystemInfo` is used. -/
theorem C81_native (is64 : Bool) (e : Env) (h : e.sizeFails = true ∨ e.allocFails = true ∨ e.queryFails = true) :
    compute is64 e = max 1 e.native := by
  have e1 : query is64 e = 0 := by
    unfold query
    rcases h with h | h | h <;> simp [h]
  rw [compute, e1, fallback_zero]

/-- The full claim fails on **every** machine with a second package: only the processors of the first are counted. -/
theorem C81_count_fails (is64 : Bool) (e : Env) (p : List Nat) (ps : List (List Nat)) (hp : e.packages = p :: ps) (h1 : e.sizeFails = false)
    (h2 : e.allocFails = false) (h3 : e.queryFails = false) (h4 : 0 < processors is64 p) (h5 : 0 < total is64 ps)
    (h6 : total is64 e.packages < 2 ^ 32) : compute is64 e = processors is64 p ∧ compute is64 e < total is64 e.packages := by
  rw [hp] at h6 ⊢
  simp only [total] at h6 ⊢
  have := sumMasks_eq is64 p 0 (by omega)
  have e1 : compute is64 e = processors is64 p := by
    have e2 : query is64 e = processors is64 p := by
      unfold query
      simp only [h1, h2, h3, hp, this, Bool.false_eq_true, if_false]
      omega
    rw [compute, e2, fallback_pos _ _ h4]
  rw [e1]
  exact ⟨rfl, by omega⟩

/-! ## The cache -/

/-- invariant: whatever was returned is in the cache, the cache holds 0 or a computable value, threads only carry computable values -/
structure Inv (vals : Nat → Prop) (s : St) : Prop where
  ret : ∀ v ∈ s.ret, v = s.cache ∧ s.cache ≠ 0
  cache : s.cache = 0 ∨ vals s.cache
  pc : ∀ t v, s.pc t = .publish v → vals v

theorem upd_publish {f : Nat → PC} {t u : Nat} {x : PC} {v : Nat} (h : upd f t x u = .publish v) : x = .publish v ∨ f u = .publish v := by
  unfold upd at h
  split at h
  · exact .inl h
  · exact .inr h

theorem inv_reach (vals : Nat → Prop) (hv : ∀ v, vals v → v ≠ 0) {s : St} (h : Reach (Step vals) s) : Inv vals s := by
  induction h with
  | init => exact ⟨by intro v h; (cases h), .inl rfl, by intro t v h; (cases h)⟩
  | step _ hs ih =>
    cases hs with
    | hit t h1 h2 =>
      refine ⟨?_, ih.cache, ih.pc⟩
      intro v hv
      rcases List.mem_cons.1 hv with rfl | hv
      · exact ⟨rfl, h2⟩
      · exact ih.ret v hv
    | miss t h1 h2 =>
      refine ⟨ih.ret, ih.cache, ?_⟩
      intro u v hu
      rcases upd_publish hu with h | h
      · cases h
      · exact ih.pc u v h
    | compute t v h1 h2 =>
      refine ⟨ih.ret, ih.cache, ?_⟩
      intro u w hu
      rcases upd_publish hu with h | h
      · cases h; exact h2
      · exact ih.pc u w h
    | first t v h1 h2 =>
      refine ⟨?_, .inr (ih.pc t v h1), ?_⟩
      · intro w hw
        rcases List.mem_cons.1 hw with rfl | hw
        · exact ⟨rfl, hv _ (ih.pc t _ h1)⟩
        · exact absurd h2 (ih.ret w hw).2
      · intro u w hu
        rcases upd_publish hu with h | h
        · cases h
        · exact ih.pc u w h
    | other t v h1 h2 =>
      refine ⟨?_, ih.cache, ?_⟩
      · intro w hw
        rcases List.mem_cons.1 hw with rfl | hw
        · exact ⟨rfl, h2⟩
        · exact ih.ret w hw
      · intro u w hu
        rcases upd_publish hu with h | h
        · cases h
        · exact ih.pc u w h

/-- **C81** (Windows): in every execution, with any number of threads and answers of the system that may change between calls, all calls
return the same value, one that was computed. -/
theorem C81_stable (is64 : Bool) {s : St} (h : Reach (Step fun v => ∃ e, v = compute is64 e) s) {a b : Nat} (ha : a ∈ s.ret) (hb : b ∈ s.ret) :
    a = b ∧ 1 ≤ a ∧ ∃ e, a = compute is64 e := by
  have hi := inv_reach _ (fun v ⟨e, he⟩ => by have := C81_positive is64 e; omega) h
  obtain ⟨h1, h2⟩ := hi.ret a ha
  obtain ⟨h3, _⟩ := hi.ret b hb
  refine ⟨by omega, by omega, ?_⟩
  rcases hi.cache with h0 | h0
  · exact absurd h0 h2
  · rw [h1]; exact h0

/-- invariant of the Unix version when the system always answers `c` -/
structure InvU (c : Nat) (s : St) : Prop where
  ret : ∀ v ∈ s.ret, v = c
  cache : s.cache = 0 ∨ s.cache = c
  pc : ∀ t v, s.pc t = .publish v → v = c
  re : ∀ t, s.pc t = .reread → s.cache = c

theorem upd_reread {f : Nat → PC} {t u : Nat} {x : PC} (h : upd f t x u = .reread) : x = .reread ∨ f u = .reread := by
  unfold upd at h
  split at h
  · exact .inl h
  · exact .inr h

/-- Unix: whatever `get_nprocs` answers (an `int`), the count is positive; it is the answer if that is positive. -/
theorem C81_positive_unix {n : Int} (h1 : -2147483648 ≤ n) (h2 : n < 2147483648) : 1 ≤ computeUnix n ∧ (0 < n → (computeUnix n : Int) = n) := by
  unfold computeUnix
  split <;> omega

example : computeUnix 0 = 1 ∧ computeUnix 6 = 6 := by decide

/-- **C81** (Unix), partial: if `get_nprocs` always gives the same answer, all calls return it.  Missing: an answer that changes while the first
calls run (`C81_stable_unix_fails`). -/
theorem C81_stable_unix_partial (n : Int) {s : St} (h : Reach (StepU fun v => v = computeUnix n) s) : ∀ v ∈ s.ret, v = computeUnix n := by
  have hi : InvU (computeUnix n) s := by
    induction h with
    | init => exact ⟨by intro v h; (cases h), .inl rfl, by intro t v h; (cases h), by intro t h; (cases h)⟩
    | step _ hs ih =>
      cases hs with
      | hit t h1 h2 =>
        refine ⟨?_, ih.cache, ih.pc, ih.re⟩
        intro v hv
        rcases List.mem_cons.1 hv with rfl | hv
        · exact ih.cache.resolve_left h2
        · exact ih.ret v hv
      | miss t h1 h2 =>
        refine ⟨ih.ret, ih.cache, ?_, ?_⟩
        · intro u v hu
          rcases upd_publish hu with h | h
          · cases h
          · exact ih.pc u v h
        · intro u hu
          rcases upd_reread hu with h | h
          · cases h
          · exact ih.re u h
      | compute t v h1 h2 =>
        refine ⟨ih.ret, ih.cache, ?_, ?_⟩
        · intro u w hu
          rcases upd_publish hu with h | h
          · cases h; exact h2
          · exact ih.pc u w h
        · intro u hu
          rcases upd_reread hu with h | h
          · cases h
          · exact ih.re u h
      | store t v h1 =>
        have hv := ih.pc t v h1
        refine ⟨ih.ret, .inr hv, ?_, ?_⟩
        · intro u w hu
          rcases upd_publish hu with h | h
          · cases h
          · exact ih.pc u w h
        · intro u _; exact hv
      | reread t h1 =>
        refine ⟨?_, ih.cache, ?_, ?_⟩
        · intro w hw
          rcases List.mem_cons.1 hw with rfl | hw
          · exact ih.re t h1
          · exact ih.ret w hw
        · intro u w hu
          rcases upd_publish hu with h | h
          · cases h
          · exact ih.pc u w h
        · intro u hu
          rcases upd_reread hu with h | h
          · cases h
          · exact ih.re u h
  exact hi.ret

/-- Unix: two threads that start together get different counts if a processor goes online between their calls of `get_nprocs`. -/
theorem C81_stable_unix_fails : ∃ s, Reach (StepU fun v => v = computeUnix 4 ∨ v = computeUnix 8) s ∧ s.ret = [8, 4] := by
  have h0 : Reach (StepU fun v => v = computeUnix 4 ∨ v = computeUnix 8) init := .init
  have h1 := Reach.step h0 (.miss _ 0 rfl rfl)
  have h2 := Reach.step h1 (.miss _ 1 rfl rfl)
  have h3 := Reach.step h2 (.compute _ 0 4 rfl (.inl (by decide)))
  have h4 := Reach.step h3 (.compute _ 1 8 rfl (.inr (by decide)))
  have h5 := Reach.step h4 (.store _ 0 4 rfl)
  have h6 := Reach.step h5 (.reread _ 0 rfl)
  have h7 := Reach.step h6 (.store _ 1 8 rfl)
  have h8 := Reach.step h7 (.reread _ 1 rfl)
  exact ⟨_, h8, rfl⟩

/-! ## Examples -/

example : bitsCount32 0xF0F0F0F1 = 17 := by decide +kernel
example : bitsCount64 0xFFFFFFFFFFFFFFFF = 64 := by decide +kernel
example : compute true ⟨[[0xFF]], false, false, false, 8⟩ = 8 ∧ total true [[0xFF]] = 8 := by decide +kernel
example : compute true ⟨[[0xFF], [0xFF00]], false, false, false, 16⟩ = 8 ∧ total true [[0xFF], [0xFF00]] = 16 := by decide +kernel

/-- two threads that raced both return the value published first -/
theorem C81_example : ∃ s, Reach (Step fun v => ∃ e, v = compute true e) s ∧ s.ret = [8, 8] := by
  have h0 : Reach (Step fun v => ∃ e, v = compute true e) init := .init
  have h1 := Reach.step h0 (.miss _ 0 rfl rfl)
  have h2 := Reach.step h1 (.miss _ 1 rfl rfl)
  have h3 := Reach.step h2 (.compute _ 0 8 rfl ⟨⟨[[0xFF]], false, false, false, 8⟩, by decide +kernel⟩)
  have h4 := Reach.step h3 (.compute _ 1 4 rfl ⟨⟨[[0xF]], false, false, false, 8⟩, by decide +kernel⟩)
  have h5 := Reach.step h4 (.first _ 0 8 rfl rfl)
  have h6 := Reach.step h5 (.other _ 1 4 rfl (by decide))
  exact ⟨_, h6, rfl⟩

#print axioms C81_bits32
#print axioms C81_bits64
#print axioms C81_positive
#print axioms C81_count_partial
#print axioms C81_native
#print axioms C81_count_fails
#print axioms C81_stable
#print axioms C81_stable_unix_partial
#print axioms C81_stable_unix_fails
#print axioms C81_example

end Verif.CpuCount
