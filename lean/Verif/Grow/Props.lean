import Verif.Grow.Model
/-! C108: memory requests cover what a block records, and appending costs constant time per element on average. -/
namespace Verif.Grow

theorem wrap_lt {W n : Nat} (h : n < W) : wrap W n = n := Nat.mod_eq_of_lt h

theorem wrap_le {W n : Nat} (h : 0 < W) : wrap W n < W := Nat.mod_lt _ h

theorem wrap_pred {W n : Nat} (h0 : 0 < n) (h : n < W) : wrap W (n + (W - 1)) = n - 1 := by
  unfold wrap
  rw [Nat.mod_eq_sub_mod (by omega), Nat.mod_eq_of_lt (by omega)]
  omega

theorem le_up16 (n) : n ≤ up16 n := by unfold up16; omega
theorem up16_lt (n) : up16 n < n + 16 := by unfold up16; omega
theorem up16_dvd (n) : up16 n % 16 = 0 := by unfold up16; omega

theorem round16_of {W n : Nat} (h : n + 15 < W) : round16 W n = up16 n := by
  unfold round16 up16
  rw [wrap_lt h]

theorem round16_big {W n : Nat} (h : n < W) (h1 : ¬ n + 15 < W) : round16 W n = 0 := by
  unfold round16 wrap
  by_cases h2 : W ≤ 15
  · have : (n + 15) % W < W := Nat.mod_lt _ (by omega)
    generalize (n + 15) % W = z at this ⊢
    omega
  · have : (n + 15) % W = n + 15 - W := by
      rw [Nat.mod_eq_sub_mod (by omega), Nat.mod_eq_of_lt (by omega)]
    rw [this]
    omega

/-- a sum that covers its own exact value did not wrap -/
theorem cover_iff {W hdr p : Nat} (hW : 0 < W) : hdr + p ≤ wrap W (hdr + wrap W p) ↔ hdr + p < W := by
  constructor
  · intro h
    have := wrap_le (n := hdr + wrap W p) hW
    omega
  · intro h
    rw [wrap_lt (n := p) (by omega), wrap_lt h]
    exact Nat.le_refl _

theorem up16_fits {W n : Nat} (h16 : W % 16 = 0) (h : up16 n < W) : n + 15 < W := by
  unfold up16 at h; omega

/-- **C108, requests.** A new block has room for what was asked for and for what it records exactly if the size in bytes does not wrap; the code
has no check. -/
theorem C108_alloc_iff {W hdr t n : Nat} (h16 : W % 16 = 0) (hn : n < W) (h0 : 0 < n) (ht : 0 < t) :
    Covers hdr t 0 n (cowAlloc W hdr t n) ↔ hdr + t * up16 n < W := by
  have hW : 0 < W := by omega
  unfold Covers cowAlloc
  by_cases h : n + 15 < W
  · rw [round16_of h]
    have := le_up16 n
    rw [if_neg (by omega)]
    dsimp only
    rw [Nat.add_zero, cover_iff hW]
    exact ⟨fun h => h.2, fun h => ⟨this, h⟩⟩
  · rw [round16_big hn h, if_pos rfl]
    constructor
    · intro h; have := h.1; dsimp only at this; omega
    · intro h1
      have h2 : up16 n ≤ t * up16 n := Nat.le_mul_of_pos_left _ ht
      exact absurd (up16_fits h16 (n := n) (by omega)) h

/-- The same for `ReAlloc` of trivially copyable elements. -/
theorem C108_realloc_iff {W hdr t n : Nat} (h16 : W % 16 = 0) (hn : n < W) (h0 : 0 < n) (ht : 0 < t) :
    ∃ r, cowRealloc W hdr t true n = some r ∧ (Covers hdr t 0 n r ↔ hdr + t * up16 n < W) := by
  have hW : 0 < W := by omega
  refine ⟨_, by unfold cowRealloc; rw [if_pos rfl], ?_⟩
  unfold Covers
  dsimp only
  rw [Nat.add_zero, cover_iff hW]
  by_cases h : n + 15 < W
  · rw [round16_of h]
    exact ⟨fun h => h.2, fun h => ⟨le_up16 n, h⟩⟩
  · rw [round16_big hn h]
    constructor
    · intro h; have := h.1; omega
    · intro h1
      have h2 : up16 n ≤ t * up16 n := Nat.le_mul_of_pos_left _ ht
      exact absurd (up16_fits h16 (n := n) (by omega)) h

/-- Elements that are not trivially copyable: if nothing wraps the block is large enough. It is much larger: `t` bytes are asked for per byte
needed (`C108_waste_fails`). -/
theorem C108_realloc_class {W hdr t n : Nat} (h16 : W % 16 = 0) (h0 : 0 < n) (ht : 0 < t)
    (h : hdr + t * up16 (hdr + t * up16 n) < W) :
    ∃ r, cowRealloc W hdr t false n = some r ∧ Covers hdr t 0 n r ∧ r.cap = up16 n ∧ r.bytes = hdr + t * up16 (hdr + t * up16 n) := by
  have h1 := le_up16 n
  have h2 := le_up16 (hdr + t * up16 n)
  have h3 : up16 n ≤ t * up16 n := Nat.le_mul_of_pos_left _ ht
  have h4 : up16 (hdr + t * up16 n) ≤ t * up16 (hdr + t * up16 n) := Nat.le_mul_of_pos_left _ ht
  have h5 := up16_fits h16 (n := n) (by omega)
  have h6 := up16_fits h16 (n := hdr + t * up16 n) (by omega)
  have e1 : wrap W (t * up16 n) = t * up16 n := wrap_lt (by omega)
  have e2 : wrap W (hdr + t * up16 n) = hdr + t * up16 n := wrap_lt (by omega)
  have e3 : wrap W (t * up16 (hdr + t * up16 n)) = t * up16 (hdr + t * up16 n) := wrap_lt (by omega)
  have e4 : wrap W (hdr + t * up16 (hdr + t * up16 n)) = hdr + t * up16 (hdr + t * up16 n) := wrap_lt h
  have ha : cowAlloc W hdr t (hdr + t * up16 n) = ⟨up16 (hdr + t * up16 n), hdr + t * up16 (hdr + t * up16 n)⟩ := by
    unfold cowAlloc
    rw [round16_of h6, if_neg (by omega), e3, e4]
  refine ⟨⟨up16 n, hdr + t * up16 (hdr + t * up16 n)⟩, ?_, ⟨h1, ?_⟩, rfl, rfl⟩
  · unfold cowRealloc
    rw [round16_of h5, e1, e2, ha]
    simp only [Bool.false_eq_true, if_false]
    rw [if_neg (by omega)]
  · dsimp only
    rw [Nat.add_zero]
    omega

/-- **C108, negated for the amount.** Growing an array of class objects asks for more than `K` times the memory needed, for every `K`: line 419
takes the number of bytes for a number of elements. -/
theorem C108_waste_fails (K : Nat) : ∃ t n, 0 < t ∧ 0 < n ∧ ∀ W, W % 16 = 0 → 32 + t * up16 (32 + t * up16 n) < W →
    ∃ r, cowRealloc W 32 t false n = some r ∧ K * (32 + t * r.cap) < r.bytes := by
  refine ⟨K + 1, 16, by omega, by decide, fun W h16 h => ?_⟩
  obtain ⟨r, h1, -, h3, h4⟩ := C108_realloc_class h16 (by decide) (by omega) h
  refine ⟨r, h1, ?_⟩
  rw [h3, h4]
  have h5 := le_up16 (32 + (K + 1) * up16 16)
  have h6 : (K + 1) * (32 + (K + 1) * up16 16) ≤ (K + 1) * up16 (32 + (K + 1) * up16 16) := Nat.mul_le_mul_left _ h5
  rw [Nat.add_mul K 1, Nat.one_mul] at h6
  omega

/-- The same for strings, with the terminator. -/
theorem C108_str_alloc_iff {W hdr t n : Nat} (h16 : W % 16 = 0) (hn : n < W) (h0 : 0 < n) (ht : 0 < t) (hh : hdr < W) :
    Covers hdr t 1 n (strAlloc W hdr t n) ↔ hdr + t * up16 (n + 1) < W := by
  have hW : 0 < W := by omega
  unfold Covers strAlloc
  rw [if_neg (by omega)]
  dsimp only
  by_cases h : n + 16 < W
  · have hu : up16 (n + 1) < W := by unfold up16; omega
    have hu1 := le_up16 (n + 1)
    rw [wrap_lt (n := n + 1) (by omega), round16_of (by omega)]
    have e1 : wrap W (up16 (n + 1) + (W - 1)) = up16 (n + 1) - 1 := by
      unfold wrap
      rw [Nat.mod_eq_sub_mod (by omega), Nat.mod_eq_of_lt (by omega)]
      omega
    rw [e1, show up16 (n + 1) - 1 + 1 = up16 (n + 1) by omega, Nat.mul_comm (up16 (n + 1)) t, cover_iff hW]
    exact ⟨fun h => h.2, fun h => ⟨by omega, h⟩⟩
  · have hr : round16 W (wrap W (n + 1)) = 0 := by
      by_cases h1 : n + 1 < W
      · rw [wrap_lt h1]
        exact round16_big h1 (by omega)
      · have : wrap W (n + 1) = 0 := by
          unfold wrap
          rw [show n + 1 = W by omega, Nat.mod_self]
        rw [this]
        unfold round16
        have hW16 : 16 ≤ W := by omega
        rw [wrap_lt (by omega)]
    rw [hr, Nat.zero_add, wrap_lt (n := W - 1) (by omega), Nat.zero_mul]
    have e0 : wrap W 0 = 0 := Nat.zero_mod _
    rw [e0, Nat.add_zero hdr, wrap_lt hh, show W - 1 + 1 = W by omega]
    have h2 : W ≤ t * W := Nat.le_mul_of_pos_left _ ht
    constructor
    · intro h; omega
    · intro h1
      have h2 : up16 (n + 1) ≤ t * up16 (n + 1) := Nat.le_mul_of_pos_left _ ht
      have := up16_fits h16 (n := n + 1) (by omega)
      omega

theorem str_realloc_aux {W hdr t cap n : Nat} (h16 : W % 16 = 0) (hn : n < W) (hc : cap < n) (hc2 : cap + cap / 2 < W) (ht : 0 < t) (hh : hdr < W) :
    Covers hdr t 1 n (strRealloc W hdr t cap n) ↔ hdr + t * up16 (max (cap + cap / 2) (n + 1)) < W ∨ (n + 1 = W ∧ hdr + t * up16 (cap + cap / 2) < W ∧ n < up16 (cap + cap / 2)) := by
  have hW : 0 < W := by omega
  unfold Covers strRealloc
  dsimp only
  by_cases h1 : n + 1 < W
  · have hm : (if wrap W (cap + cap / 2) < wrap W (n + 1) then wrap W (n + 1) else wrap W (cap + cap / 2)) = max (cap + cap / 2) (n + 1) := by
      rw [wrap_lt hc2, wrap_lt h1]
      split <;> omega
    unfold strNew
    rw [hm]
    generalize hx : max (cap + cap / 2) (n + 1) = x
    have hxW : x < W := by omega
    have hxn : n + 1 ≤ x := by omega
    by_cases h : x + 15 < W
    · have hu : up16 x < W := by unfold up16; omega
      have hu1 := le_up16 x
      rw [round16_of h, wrap_pred (by omega) hu, show up16 x - 1 + 1 = up16 x by omega, Nat.mul_comm (up16 x) t, cover_iff hW]
      exact ⟨fun h => .inl h.2, fun h => ⟨by omega, by omega⟩⟩
    · rw [round16_big hxW h, Nat.zero_add, wrap_lt (n := W - 1) (by omega), Nat.zero_mul, show wrap W 0 = 0 from Nat.zero_mod _, Nat.add_zero hdr, wrap_lt hh,
        show W - 1 + 1 = W by omega]
      have h2 : W ≤ t * W := Nat.le_mul_of_pos_left _ ht
      constructor
      · intro h; omega
      · rintro (h3 | h3)
        · have h4 : up16 x ≤ t * up16 x := Nat.le_mul_of_pos_left _ ht
          have := up16_fits h16 (n := x) (by omega)
          omega
        · omega
  · have hn1 : n + 1 = W := by omega
    have hm : (if wrap W (cap + cap / 2) < wrap W (n + 1) then wrap W (n + 1) else wrap W (cap + cap / 2)) = cap + cap / 2 := by
      have e0 : wrap W (n + 1) = 0 := by unfold wrap; rw [hn1, Nat.mod_self]
      rw [wrap_lt hc2, e0, if_neg (by omega)]
    unfold strNew
    rw [hm]
    generalize cap + cap / 2 = x at hc2 ⊢
    have h4 : up16 (max x (n + 1)) ≤ t * up16 (max x (n + 1)) := Nat.le_mul_of_pos_left _ ht
    have h5 := le_up16 (max x (n + 1))
    by_cases h : x + 15 < W
    · have hu : up16 x < W := by unfold up16; omega
      rw [round16_of h]
      by_cases hz : up16 x = 0
      · rw [hz, Nat.zero_add, wrap_lt (n := W - 1) (by omega), Nat.zero_mul, show wrap W 0 = 0 from Nat.zero_mod _, Nat.add_zero hdr, wrap_lt hh,
          show W - 1 + 1 = W by omega]
        have h2 : W ≤ t * W := Nat.le_mul_of_pos_left _ ht
        constructor
        · intro h; omega
        · rintro (h3 | h3) <;> omega
      · rw [wrap_pred (by omega) hu]
        constructor
        · intro h; omega
        · rintro (h3 | h3) <;> omega
    · rw [round16_big hc2 h, Nat.zero_add, wrap_lt (n := W - 1) (by omega), Nat.zero_mul, show wrap W 0 = 0 from Nat.zero_mod _, Nat.add_zero hdr, wrap_lt hh,
        show W - 1 + 1 = W by omega]
      have h2 : W ≤ t * W := Nat.le_mul_of_pos_left _ ht
      have h6 : up16 x ≤ t * up16 x := Nat.le_mul_of_pos_left _ ht
      constructor
      · intro h; omega
      · rintro (h3 | h3)
        · omega
        · have := up16_fits h16 (n := x) (by omega)
          omega

/-- The same for the growth of a string, as long as one and a half times the old capacity is below `W`. -/
theorem C108_str_realloc_iff {W hdr t cap n : Nat} (h16 : W % 16 = 0) (hn : n < W) (hc : cap < n) (hc2 : cap + cap / 2 < W) (ht : 0 < t) (hh : hdr < W) :
    Covers hdr t 1 n (strRealloc W hdr t cap n) ↔ hdr + t * up16 (max (cap + cap / 2) (n + 1)) < W := by
  rw [str_realloc_aux h16 hn hc hc2 ht hh]
  constructor
  · rintro (h | ⟨h1, h2, h3⟩)
    · exact h
    · have h6 : up16 (cap + cap / 2) ≤ t * up16 (cap + cap / 2) := Nat.le_mul_of_pos_left _ ht
      omega
  · exact .inl

/-- Small object optimisation: the same, without header. -/
theorem C108_soo_iff {W t n : Nat} (hW : 0 < W) : Covers 0 t 0 n (sooRealloc W t n) ↔ t * n < W := by
  unfold Covers sooRealloc
  dsimp only
  rw [Nat.mul_comm n t, Nat.zero_add, Nat.add_zero]
  constructor
  · intro h
    have := wrap_le (n := t * n) hW
    omega
  · intro h
    rw [wrap_lt h]
    exact ⟨Nat.le_refl _, Nat.le_refl _⟩

/-- **C108, negated for large requests** on 64-bit systems. `Reserve(2^60)` of 16 byte elements gets 32 bytes and records 2^60 elements; `LockBuffer(SIZE_MAX)`
of a string gets the header only and records `SIZE_MAX` characters. -/
theorem C108_wrap_fails :
    cowAlloc (2 ^ 64) 32 16 (2 ^ 60) = ⟨2 ^ 60, 32⟩ ∧ strAlloc (2 ^ 64) 24 2 (2 ^ 64 - 1) = ⟨2 ^ 64 - 1, 24⟩ ∧
    sooRealloc (2 ^ 64) 16 (2 ^ 60) = ⟨2 ^ 60, 0⟩ := by
  decide +kernel

/-! ### Appending -/

theorem newCap_of {W cap need : Nat} (h : cap < need) (h1 : cap + cap / 2 < W) :
    newCap W cap need = max (cap + cap / 2) need := by
  unfold newCap
  rw [wrap_lt h1, if_neg (by omega)]
  split <;> omega

structure CInv (b : Buf) : Prop where
  al : b.cap % 16 = 0
  le : b.size ≤ b.cap
  m1 : b.moved ≤ 2 * b.cap
  m2 : b.moved ≤ 3 * b.size

theorem cowRealloc_cap {W hdr t n : Nat} (triv : Bool) (h0 : 0 < hdr) (h1 : n + 15 < W) (h2 : hdr + t * up16 n + 15 < W) :
    ∃ r, cowRealloc W hdr t triv n = some r ∧ r.cap = up16 n := by
  cases triv with
  | true =>
    refine ⟨_, by unfold cowRealloc; rw [if_pos rfl], ?_⟩
    exact round16_of h1
  | false =>
    unfold cowRealloc
    simp only [Bool.false_eq_true, if_false]
    rw [round16_of h1, wrap_lt (n := t * up16 n) (by omega), wrap_lt (n := hdr + t * up16 n) (by omega)]
    have : (cowAlloc W hdr t (hdr + t * up16 n)).cap ≠ 0 := by
      unfold cowAlloc
      rw [round16_of h2]
      have := le_up16 (hdr + t * up16 n)
      rw [if_neg (by omega)]
      dsimp only
      omega
    rw [if_neg this]
    exact ⟨_, rfl, rfl⟩

theorem cowAdd_inv {W hdr t : Nat} {triv : Bool} {b : Buf} {k : Nat} (hI : CInv b) (h0 : 0 < hdr) (ht : 0 < t)
    (hf : hdr + t * (2 * (b.size + k) + 32) + 16 ≤ W) : ∃ b', cowAdd W hdr t triv b k = some b' ∧ b'.size = b.size + k ∧ CInv b' := by
  have hmul : 2 * (b.size + k) + 32 ≤ t * (2 * (b.size + k) + 32) := Nat.le_mul_of_pos_left _ ht
  obtain ⟨al, le, m1, m2⟩ := hI
  unfold cowAdd
  rw [wrap_lt (n := b.size + k) (by omega)]
  by_cases hc : b.size + k ≤ b.cap
  · have : newCap W b.cap (b.size + k) = b.cap := by unfold newCap; rw [if_pos hc]
    rw [this, if_pos (Nat.le_refl _)]
    exact ⟨_, rfl, rfl, ⟨al, hc, m1, by dsimp only; omega⟩⟩
  · rw [newCap_of (by omega) (by omega), if_neg (by omega)]
    by_cases hz : b.cap = 0
    · rw [if_pos hz]
      refine ⟨_, rfl, rfl, ?_⟩
      have hr : round16 W (b.size + k) = up16 (b.size + k) := round16_of (by omega)
      have hcap : (cowAlloc W hdr t (b.size + k)).cap = up16 (b.size + k) := by
        unfold cowAlloc
        rw [hr]
        split
        · rename_i h; exact h.symm
        · rfl
      have := le_up16 (b.size + k)
      have := up16_dvd (b.size + k)
      refine ⟨?_, ?_, ?_, ?_⟩ <;> (dsimp only; try rw [hcap]) <;> omega
    · rw [if_neg hz]
      have hle : up16 (max (b.cap + b.cap / 2) (b.size + k)) ≤ 2 * (b.size + k) + 32 := by
        have := up16_lt (max (b.cap + b.cap / 2) (b.size + k)); omega
      have hle2 := Nat.mul_le_mul_left t hle
      obtain ⟨r, hr, hrc⟩ := cowRealloc_cap (W := W) (hdr := hdr) (t := t) (n := max (b.cap + b.cap / 2) (b.size + k)) triv h0 (by omega) (by omega)
      rw [hr]
      refine ⟨_, rfl, rfl, ?_⟩
      have h1 := le_up16 (max (b.cap + b.cap / 2) (b.size + k))
      have h2 := up16_dvd (max (b.cap + b.cap / 2) (b.size + k))
      refine ⟨?_, ?_, ?_, ?_⟩ <;> (dsimp only; try rw [hrc]) <;> omega

/-- **C108, cost of `Add`** (copy-on-write array, any element type). Any sequence of `Add` of any numbers of elements, starting from an empty array,
moves at most three elements per element added. -/
theorem C108_add {W hdr t : Nat} {triv : Bool} (h0 : 0 < hdr) (ht : 0 < t) (ks : List Nat) (hf : hdr + t * (2 * ks.sum + 32) + 16 ≤ W) :
    ∃ b, ks.foldlM (cowAdd W hdr t triv) {} = some b ∧ b.size = ks.sum ∧ b.size ≤ b.cap ∧ b.moved ≤ 3 * ks.sum := by
  suffices h : ∀ (ks : List Nat) (b : Buf), CInv b → hdr + t * (2 * (b.size + ks.sum) + 32) + 16 ≤ W →
      ∃ b', ks.foldlM (cowAdd W hdr t triv) b = some b' ∧ b'.size = b.size + ks.sum ∧ CInv b' by
    obtain ⟨b, h1, h2, h3⟩ := h ks {} ⟨rfl, Nat.le_refl _, Nat.zero_le _, Nat.zero_le _⟩ (by simpa using hf)
    have h4 : b.size = ks.sum := by rw [h2]; exact Nat.zero_add _
    exact ⟨b, h1, h4, h3.le, h4 ▸ h3.m2⟩
  intro ks
  induction ks with
  | nil => intro b hb _; exact ⟨b, rfl, rfl, hb⟩
  | cons k ks ih =>
    intro b hb hf
    rw [List.sum_cons] at hf
    have hle : t * (2 * (b.size + k) + 32) ≤ t * (2 * (b.size + (k + ks.sum)) + 32) := Nat.mul_le_mul_left _ (by omega)
    obtain ⟨b1, e1, s1, i1⟩ := cowAdd_inv (W := W) (hdr := hdr) (t := t) (triv := triv) (k := k) hb h0 ht (by omega)
    obtain ⟨b2, e2, s2, i2⟩ := ih b1 i1 (by rw [s1, Nat.add_assoc b.size k]; exact hf)
    refine ⟨b2, ?_, ?_, i2⟩
    · rw [List.foldlM_cons, e1]
      exact e2
    · rw [s2, s1, List.sum_cons]; omega

structure SInv (b : Buf) : Prop where
  al : b.cap = 0 ∨ b.cap % 16 = 15
  le : b.size ≤ b.cap
  m1 : b.moved ≤ 2 * b.cap
  m2 : b.moved ≤ 3 * b.size

theorem strAdd_inv {W hdr t : Nat} {b : Buf} {k : Nat} (hI : SInv b) (hf : 2 * (b.size + k) + 64 ≤ W) :
    (strAdd W hdr t b k).size = b.size + k ∧ SInv (strAdd W hdr t b k) := by
  obtain ⟨al, le, m1, m2⟩ := hI
  unfold strAdd
  rw [wrap_lt (n := b.size + k) (by omega)]
  by_cases hc : b.size + k ≤ b.cap
  · rw [if_pos hc]
    exact ⟨rfl, al, hc, m1, by dsimp only; omega⟩
  · rw [if_neg hc]
    by_cases hz : b.cap = 0
    · rw [if_pos hz]
      refine ⟨rfl, ?_⟩
      have h1 := le_up16 (b.size + k + 1)
      have h2 := up16_dvd (b.size + k + 1)
      have h3 := up16_lt (b.size + k + 1)
      have hcap : (strAlloc W hdr t (b.size + k)).cap = up16 (b.size + k + 1) - 1 := by
        unfold strAlloc
        rw [if_neg (by omega), wrap_lt (n := b.size + k + 1) (by omega), round16_of (by omega)]
        exact wrap_pred (by omega) (by omega)
      refine ⟨?_, ?_, ?_, ?_⟩ <;> (dsimp only; try rw [hcap]) <;> omega
    · rw [if_neg hz]
      refine ⟨rfl, ?_⟩
      have hnew : strNew W b.cap (b.size + k) = up16 (max (b.cap + b.cap / 2) (b.size + k + 1)) := by
        unfold strNew
        rw [wrap_lt (n := b.cap + b.cap / 2) (by omega), wrap_lt (n := b.size + k + 1) (by omega)]
        rw [show (if b.cap + b.cap / 2 < b.size + k + 1 then b.size + k + 1 else b.cap + b.cap / 2) = max (b.cap + b.cap / 2) (b.size + k + 1) by
          split <;> omega]
        exact round16_of (by omega)
      have h1 := le_up16 (max (b.cap + b.cap / 2) (b.size + k + 1))
      have h2 := up16_dvd (max (b.cap + b.cap / 2) (b.size + k + 1))
      have h3 := up16_lt (max (b.cap + b.cap / 2) (b.size + k + 1))
      have hcap : (strRealloc W hdr t b.cap (b.size + k)).cap = up16 (max (b.cap + b.cap / 2) (b.size + k + 1)) - 1 := by
        unfold strRealloc
        rw [hnew]
        exact wrap_pred (by omega) (by omega)
      refine ⟨?_, ?_, ?_, ?_⟩ <;> (dsimp only; try rw [hcap]) <;> omega

/-- **C108, cost of appending to a string**: at most three characters are moved per character appended. -/
theorem C108_append {W hdr t : Nat} (ks : List Nat) (hf : 2 * ks.sum + 64 ≤ W) :
    (ks.foldl (strAdd W hdr t) {}).size = ks.sum ∧ (ks.foldl (strAdd W hdr t) {}).size ≤ (ks.foldl (strAdd W hdr t) {}).cap ∧
    (ks.foldl (strAdd W hdr t) {}).moved ≤ 3 * ks.sum := by
  suffices h : ∀ (ks : List Nat) (b : Buf), SInv b → 2 * (b.size + ks.sum) + 64 ≤ W →
      (ks.foldl (strAdd W hdr t) b).size = b.size + ks.sum ∧ SInv (ks.foldl (strAdd W hdr t) b) by
    obtain ⟨h2, h3⟩ := h ks {} ⟨.inl rfl, Nat.le_refl _, Nat.zero_le _, Nat.zero_le _⟩ (by simpa using hf)
    have h4 : (ks.foldl (strAdd W hdr t) {}).size = ks.sum := by rw [h2]; exact Nat.zero_add _
    have h5 := h3.m2
    rw [h4] at h5
    exact ⟨h4, h3.le, h5⟩
  intro ks
  induction ks with
  | nil => intro b hb _; exact ⟨rfl, hb⟩
  | cons k ks ih =>
    intro b hb hf
    rw [List.sum_cons] at hf
    obtain ⟨s1, i1⟩ := strAdd_inv (W := W) (hdr := hdr) (t := t) (k := k) hb (by omega)
    obtain ⟨s2, i2⟩ := ih _ i1 (by rw [s1]; omega)
    rw [List.foldl_cons]
    exact ⟨by rw [s2, s1, List.sum_cons]; omega, i2⟩

structure OInv (b : Buf) : Prop where
  le : b.size ≤ b.cap
  m1 : b.moved ≤ 3 * b.cap
  m2 : b.moved ≤ 4 * b.size

theorem sooAdd_inv {W t : Nat} {b : Buf} {k : Nat} (hI : OInv b) (hf : 2 * (b.size + k) ≤ W) (hc0 : b.size + k < W) :
    (sooAdd W t b k).size = b.size + k ∧ OInv (sooAdd W t b k) := by
  obtain ⟨le, m1, m2⟩ := hI
  unfold sooAdd
  rw [wrap_lt hc0]
  by_cases hc : b.size + k ≤ b.cap
  · rw [if_pos hc]
    exact ⟨rfl, hc, m1, by dsimp only; omega⟩
  · rw [if_neg hc]
    refine ⟨rfl, ?_⟩
    have hcap : (sooRealloc W t (newCap W b.cap (b.size + k))).cap = max (b.cap + b.cap / 2) (b.size + k) := newCap_of (by omega) (by omega)
    refine ⟨?_, ?_, ?_⟩ <;> (dsimp only; try rw [hcap]) <;> omega

/-- **C108, cost of `Add` with small object optimisation**, whatever the capacity `c` inside the object: at most four elements are moved per element
added. -/
theorem C108_soo_add {W t : Nat} (c : Nat) (ks : List Nat) (hW : 0 < W) (hf : 2 * ks.sum ≤ W) :
    (ks.foldl (sooAdd W t) { cap := c }).size = ks.sum ∧ (ks.foldl (sooAdd W t) { cap := c }).size ≤ (ks.foldl (sooAdd W t) { cap := c }).cap ∧
    (ks.foldl (sooAdd W t) { cap := c }).moved ≤ 4 * ks.sum := by
  suffices h : ∀ (ks : List Nat) (b : Buf), OInv b → 2 * (b.size + ks.sum) ≤ W →
      (ks.foldl (sooAdd W t) b).size = b.size + ks.sum ∧ OInv (ks.foldl (sooAdd W t) b) by
    obtain ⟨h2, h3⟩ := h ks { cap := c } ⟨Nat.zero_le _, Nat.zero_le _, Nat.zero_le _⟩ (by simpa using hf)
    have h4 : (ks.foldl (sooAdd W t) { cap := c }).size = ks.sum := by rw [h2]; exact Nat.zero_add _
    have h5 := h3.m2
    rw [h4] at h5
    exact ⟨h4, h3.le, h5⟩
  intro ks
  induction ks with
  | nil => intro b hb _; exact ⟨rfl, hb⟩
  | cons k ks ih =>
    intro b hb hf
    rw [List.sum_cons] at hf
    obtain ⟨s1, i1⟩ := sooAdd_inv (W := W) (t := t) (k := k) hb (by omega) (by omega)
    obtain ⟨s2, i2⟩ := ih _ i1 (by rw [s1]; omega)
    rw [List.foldl_cons]
    exact ⟨by rw [s2, s1, List.sum_cons]; omega, i2⟩

/-- `Resize(1)`, `Resize(2)`, …, `Resize(j)` -/
def resizes (W hdr t : Nat) (triv : Bool) : Nat → Option Buf
  | 0 => some {}
  | j + 1 => (resizes W hdr t triv j).bind fun b => cowResize W hdr t triv b (j + 1)

/-- **C108, negated for `Resize`.** Growing by one element at a time with `Resize` moves a number of elements that is quadratic in the size: 8 q (q - 1)
for 16 q elements. -/
theorem C108_resize_fails {W hdr t : Nat} {triv : Bool} (h0 : 0 < hdr) (ht : 0 < t) (q : Nat) (hf : hdr + t * (16 * q + 16) + 16 ≤ W) :
    ∃ b, resizes W hdr t triv (16 * q) = some b ∧ b.size = 16 * q ∧ b.moved = 8 * (q * (q - 1)) := by
  suffices h : ∀ j, j ≤ 16 * q → ∃ b, resizes W hdr t triv j = some b ∧ b.size = j ∧ b.cap = up16 j ∧
      b.moved = 8 * (((j + 15) / 16) * ((j + 15) / 16 - 1)) by
    obtain ⟨b, h1, h2, h3, h4⟩ := h (16 * q) (Nat.le_refl _)
    refine ⟨b, h1, h2, ?_⟩
    rw [h4, show (16 * q + 15) / 16 = q by omega]
  intro j
  induction j with
  | zero => intro _; exact ⟨{}, rfl, rfl, rfl, rfl⟩
  | succ j ih =>
    intro hj
    obtain ⟨b, h1, h2, h3, h4⟩ := ih (by omega)
    have e : resizes W hdr t triv (j + 1) = cowResize W hdr t triv b (j + 1) := by
      show (resizes W hdr t triv j).bind _ = _
      rw [h1]; rfl
    rw [e]
    unfold cowResize
    have hmul : 16 * q + 16 ≤ t * (16 * q + 16) := Nat.le_mul_of_pos_left _ ht
    by_cases hc : j + 1 ≤ b.cap
    · rw [if_pos hc]
      rw [h3] at hc
      have hq : (j + 1 + 15) / 16 = (j + 15) / 16 := by unfold up16 at hc; omega
      refine ⟨_, rfl, rfl, ?_, ?_⟩
      · show b.cap = _
        rw [h3]; unfold up16; rw [hq]
      · show b.moved = _
        rw [h4, hq]
    · rw [if_neg hc]
      rw [h3] at hc
      have hj16 : j % 16 = 0 := by unfold up16 at hc; omega
      obtain ⟨m, hm⟩ : ∃ m, j = 16 * m := ⟨j / 16, by omega⟩
      have hq1 : (j + 1 + 15) / 16 = m + 1 := by omega
      have hq0 : (j + 15) / 16 = m := by omega
      have hmoved : b.moved + b.size = 8 * ((m + 1) * (m + 1 - 1)) := by
        rw [h4, h2, hq0, hm]
        cases m with
        | zero => rfl
        | succ m =>
          simp only [Nat.add_sub_cancel]
          have : (m + 1 + 1) * (m + 1) = (m + 1) * m + 2 * (m + 1) := by
            rw [Nat.mul_comm (m + 1 + 1), ← Nat.mul_comm (m + 1) 2, ← Nat.mul_add]
          rw [this]
          omega
      by_cases hz : b.cap = 0
      · rw [if_pos hz]
        refine ⟨_, rfl, rfl, ?_, ?_⟩
        · show (cowAlloc W hdr t (j + 1)).cap = _
          unfold cowAlloc
          rw [round16_of (by omega)]
          split
          · rename_i h; exact h.symm
          · rfl
        · show b.moved + b.size = _
          rw [hmoved, hq1]
      · rw [if_neg hz]
        have hle : up16 (j + 1) ≤ 16 * q + 16 := by unfold up16; omega
        have hle2 := Nat.mul_le_mul_left t hle
        obtain ⟨r, hr, hrc⟩ := cowRealloc_cap (W := W) (hdr := hdr) (t := t) (n := j + 1) triv h0 (by omega) (by omega)
        rw [hr]
        refine ⟨_, rfl, rfl, hrc, ?_⟩
        show b.moved + b.size = _
        rw [hmoved, hq1]

/-- Examples: 1000 single `Add` move 2864 elements, 1000 characters appended one by one 2854: the factor three is nearly reached. Growing to 1600
elements with `Resize` moves 79200. An array of 8 byte class objects that grows to 17 asks for 2336 bytes instead of 288. -/
theorem C108_example :
    ((List.replicate 1000 1).foldlM (cowAdd (2 ^ 64) 32 8 false) {}).map (fun b => (b.size, b.cap, b.moved)) = some (1000, 1488, 2864) ∧
    ((List.replicate 1000 1).foldl (strAdd (2 ^ 64) 24 2) {}) = ⟨1487, 1000, 2854⟩ ∧
    8 * (100 * (100 - 1)) = 79200 ∧
    cowRealloc (2 ^ 64) 32 8 false 17 = some ⟨32, 2336⟩ ∧ cowRealloc (2 ^ 64) 32 8 true 17 = some ⟨32, 288⟩ := by
  decide +kernel

end Verif.Grow
