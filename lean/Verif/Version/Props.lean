import Verif.Version.Model
/-!
# C39 – version comparison
-/
namespace Verif.Version

/-- strict lexicographic order of (major, minor, build, revision) -/
def Lex (a b : Fields) : Prop :=
  a.major.toNat < b.major.toNat ∨ (a.major = b.major ∧ (a.minor.toNat < b.minor.toNat ∨ (a.minor = b.minor ∧
    (a.build.toNat < b.build.toNat ∨ (a.build = b.build ∧ a.revision.toNat < b.revision.toNat)))))

/-- what each operator must mean -/
def Means (r : Rel) (a b : Fields) : Prop :=
  match r with
  | .eq => a = b
  | .ne => a ≠ b
  | .lt => Lex a b
  | .le => Lex a b ∨ a = b
  | .gt => Lex b a
  | .ge => Lex b a ∨ a = b

theorem pack_toNat (f : Fields) : (pack f).toNat = ((f.major.toNat * 65536 + f.minor.toNat) * 65536 + f.build.toNat) * 65536 + f.revision.toNat := by
  have h1 := f.major.isLt
  have h2 := f.minor.isLt
  have h3 := f.build.isLt
  have h4 := f.revision.isLt
  simp only [pack, BitVec.toNat_append]
  rw [← Nat.shiftLeft_add_eq_or_of_lt h2, ← Nat.shiftLeft_add_eq_or_of_lt h3, ← Nat.shiftLeft_add_eq_or_of_lt h4]
  simp only [Nat.shiftLeft_eq]

theorem pack_lt (a b : Fields) : (pack a).toNat < (pack b).toNat ↔ Lex a b := by
  obtain ⟨a1, a2, a3, a4⟩ := a
  obtain ⟨b1, b2, b3, b4⟩ := b
  simp only [pack_toNat, Lex, BitVec.toNat_eq]
  have := a1.isLt; have := a2.isLt; have := a3.isLt; have := a4.isLt
  have := b1.isLt; have := b2.isLt; have := b3.isLt; have := b4.isLt
  omega

/-- **C39** the fields are recovered from the packed value. -/
theorem C39_fields (f : Fields) : unpack (pack f) = f := by
  obtain ⟨a, b, c, d⟩ := f
  simp only [unpack, pack, Fields.mk.injEq]
  refine ⟨?_, ?_, ?_, ?_⟩ <;> ext i hi <;> simp [BitVec.getElem_append, BitVec.getLsbD_append, BitVec.getLsbD_extractLsb', hi] <;> grind

theorem pack_inj (a b : Fields) : pack a = pack b ↔ a = b := ⟨fun h => by rw [← C39_fields a, h, C39_fields], fun h => by rw [h]⟩

/-- every packed value is the packing of its fields -/
theorem C39_pack_unpack (v : BitVec 64) : pack (unpack v) = v := by
  apply BitVec.eq_of_toNat_eq
  rw [pack_toNat]
  have := v.isLt
  simp only [unpack, BitVec.extractLsb'_toNat, Nat.shiftRight_eq_div_pow]
  omega

/-- the low part is (build, revision) -/
theorem C39_lowPart (f : Fields) : (lowPart (pack f)).toNat = f.build.toNat * 65536 + f.revision.toNat := by
  have := f.major.isLt; have := f.minor.isLt; have := f.build.isLt; have := f.revision.isLt
  simp only [lowPart, BitVec.extractLsb'_toNat, Nat.shiftRight_eq_div_pow, pack_toNat]
  omega

/-- the high part orders by (major, minor) only -/
theorem C39_hightPart (f : Fields) : (hightPart (pack f)).toNat = f.major.toNat * 65536 + f.minor.toNat := by
  have := f.major.isLt; have := f.minor.isLt; have := f.build.isLt; have := f.revision.isLt
  simp only [hightPart, BitVec.extractLsb'_toNat, Nat.shiftRight_eq_div_pow, pack_toNat]
  omega

theorem le_iff (a b : Fields) : (pack a).toNat ≤ (pack b).toNat ↔ (Lex a b ∨ a = b) := by
  rw [Nat.le_iff_lt_or_eq, pack_lt, BitVec.toNat_inj, pack_inj]

/-- **C39** with C++20 all six operators are exactly the lexicographic order of the fields. -/
theorem C39_cmp20 (r : Rel) (a b : Fields) : cmp20 r (pack a) (pack b) = true ↔ Means r a b := by
  cases r
  · simp [cmp20, Means, pack_inj]
  · simp [cmp20, Means, pack_inj]
  · simp [cmp20, Means, ← pack_lt, Nat.compare_eq_lt]
  · simp [cmp20, Means, ← le_iff, Nat.compare_ne_gt]
  · simp [cmp20, Means, ← pack_lt, Nat.compare_eq_gt]
  · have : (Lex b a ∨ a = b) ↔ (Lex b a ∨ b = a) := by rw [eq_comm]
    simp [cmp20, Means, this, ← le_iff, Nat.compare_ne_lt]

/-- **C39** before C++20 all operators except `!=` are.  Missing: `!=`. -/
theorem C39_cmp17_partial (r : Rel) (hr : r ≠ .ne) (a b : Fields) : cmp17 r (pack a) (pack b) = true ↔ Means r a b := by
  cases r
  · simp [cmp17, Means, pack_inj]
  · exact absurd rfl hr
  · simp [cmp17, Means, ← pack_lt, BitVec.lt_def]
  · simp [cmp17, Means, ← le_iff, BitVec.le_def]
  · simp [cmp17, Means, ← pack_lt, BitVec.lt_def]
  · have : (Lex b a ∨ a = b) ↔ (Lex b a ∨ b = a) := by rw [eq_comm]
    simp [cmp17, Means, this, ← le_iff, BitVec.le_def]

/-- Before C++20 `!=` tests `>`: 1.0 is not reported different from 2.0. -/
theorem C39_ne_fails : cmp17 .ne (pack ⟨1, 0, 0, 0⟩) (pack ⟨2, 0, 0, 0⟩) = false ∧ Means .ne ⟨1, 0, 0, 0⟩ ⟨2, 0, 0, 0⟩ := by
  constructor
  · decide
  · simp [Means]

/-- exactly: `a != b` is wrong for `a < b` only -/
theorem C39_ne_exact (a b : Fields) : cmp17 .ne (pack a) (pack b) = true ↔ Lex b a := by
  simp [cmp17, ← pack_lt, BitVec.lt_def]

example : cmp20 .lt (pack ⟨6, 1, 7601, 0⟩) (pack ⟨10, 0, 0, 0⟩) = true := by decide
example : Means .gt ⟨10, 0, 19041, 2⟩ ⟨10, 0, 19041, 1⟩ := by simp [Means, Lex]

#print axioms C39_cmp20
#print axioms C39_cmp17_partial
#print axioms C39_pack_unpack
#print axioms C39_fields

end Verif.Version
