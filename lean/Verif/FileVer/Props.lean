import Verif.FileVer.Model
import Verif.Version.Props
import Verif.ErrCode.Props
/-!
# C86 – versions of the operating system and of files
-/
namespace Verif.FileVer
open Verif.Version Verif.ErrCode

/-! ## Operating system -/

/-- a release of the operating system: major, minor, build, service pack -/
structure Release where
  major : Nat
  minor : Nat
  build : Nat
  sp : Nat

/-- "at least", number by number -/
def Release.atLeast (a b : Release) : Prop :=
  b.major < a.major ∨ (b.major = a.major ∧ (b.minor < a.minor ∨ (b.minor = a.minor ∧ (b.build < a.build ∨ (b.build = a.build ∧ b.sp ≤ a.sp)))))

/-- the constants of SystemInfo.h (17-68) and the release each stands for -/
inductive Known : Fields → Release → Prop
  | plain (M m b : BitVec 16) : Known ⟨M, m, b, 0⟩ ⟨M.toNat, m.toNat, b.toNat, 0⟩
  | xp1 : Known ⟨5, 1, 2600, 1106⟩ ⟨5, 1, 2600, 1⟩
  | xp2 : Known ⟨5, 1, 2600, 2180⟩ ⟨5, 1, 2600, 2⟩
  | xp3 : Known ⟨5, 1, 2600, 5512⟩ ⟨5, 1, 2600, 3⟩
  | srv1 : Known ⟨5, 2, 3790, 1830⟩ ⟨5, 2, 3790, 1⟩

/-- the release the process environment block describes -/
def release (p : Peb) : Release := ⟨p.major.toNat, p.minor.toNat, p.build.toNat, p.csd.toNat / 256⟩

theorem revision_spec (M m b : BitVec 16) (sp : Nat) :
    (revision ⟨M, m, b, 0⟩ sp).toNat =
      if M.toNat = 5 ∧ m.toNat = 1 ∧ b.toNat = 2600 then (if sp = 0 then 0 else if sp = 1 then 1106 else if sp = 2 then 2180 else 5512)
      else if M.toNat = 5 ∧ m.toNat = 2 ∧ b.toNat = 3790 then (if sp = 0 then 0 else 1830) else 0 := by
  have e1 : (pack ⟨M, m, b, 0⟩ = pack ⟨5, 1, 2600, 0⟩) = (M.toNat = 5 ∧ m.toNat = 1 ∧ b.toNat = 2600) := by
    rw [pack_inj]
    simp [BitVec.toNat_eq]
  have e2 : (pack ⟨M, m, b, 0⟩ = pack ⟨5, 2, 3790, 0⟩) = (M.toNat = 5 ∧ m.toNat = 2 ∧ b.toNat = 3790) := by
    rw [pack_inj]
    simp [BitVec.toNat_eq]
  unfold revision
  simp only [e1, e2]
  split
  · match sp with
    | 0 => rfl
    | 1 => rfl
    | 2 => rfl
    | n + 3 => simp
  · split
    · match sp with
      | 0 => rfl
      | n + 1 => simp
    · rfl

/-- the comparison in numbers -/
theorem atLeast_nat (M m b sp rv M' m' b' sp' rv' : Nat)
    (hrev : rv = if M = 5 ∧ m = 1 ∧ b = 2600 then (if sp = 0 then 0 else if sp = 1 then 1106 else if sp = 2 then 2180 else 5512)
      else if M = 5 ∧ m = 2 ∧ b = 3790 then (if sp = 0 then 0 else 1830) else 0)
    (hk : (sp' = 0 ∧ rv' = 0) ∨ (M' = 5 ∧ m' = 1 ∧ b' = 2600 ∧ ((sp' = 1 ∧ rv' = 1106) ∨ (sp' = 2 ∧ rv' = 2180) ∨ (sp' = 3 ∧ rv' = 5512))) ∨
      (M' = 5 ∧ m' = 2 ∧ b' = 3790 ∧ sp' = 1 ∧ rv' = 1830)) :
    ((M' < M ∨ (M' = M ∧ (m' < m ∨ (m' = m ∧ (b' < b ∨ (b' = b ∧ rv' < rv)))))) ∨ (M = M' ∧ m = m' ∧ b = b' ∧ rv = rv')) ↔
      (M' < M ∨ (M' = M ∧ (m' < m ∨ (m' = m ∧ (b' < b ∨ (b' = b ∧ sp' ≤ sp)))))) := by
  by_cases c1 : M = 5 ∧ m = 1 ∧ b = 2600
  · rw [if_pos c1] at hrev
    by_cases s0 : sp = 0
    · rw [if_pos s0] at hrev; omega
    · rw [if_neg s0] at hrev
      by_cases s1 : sp = 1
      · rw [if_pos s1] at hrev; omega
      · rw [if_neg s1] at hrev
        by_cases s2 : sp = 2
        · rw [if_pos s2] at hrev; omega
        · rw [if_neg s2] at hrev; omega
  · rw [if_neg c1] at hrev
    by_cases c2 : M = 5 ∧ m = 2 ∧ b = 3790
    · rw [if_pos c2] at hrev
      by_cases s0 : sp = 0
      · rw [if_pos s0] at hrev; omega
      · rw [if_neg s0] at hrev; omega
    · rw [if_neg c2] at hrev; omega

/-- **C86**: comparing the version of the operating system with a constant of SystemInfo.h – as every user does – tells exactly whether the running
release, including its service pack, is at least the release the constant stands for. -/
theorem C86_atLeast (p : Peb) (h1 : p.major.toNat < 65536) (h2 : p.minor.toNat < 65536) (f : Fields) (r : Release) (hk : Known f r) :
    cmp20 .ge (osVersion p) (pack f) = true ↔ (release p).atLeast r := by
  have hrev := revision_spec (p.major.truncate 16) (p.minor.truncate 16) p.build (hiByte p.csd)
  have m1 : (p.major.truncate 16).toNat = p.major.toNat := by simp; omega
  have m2 : (p.minor.truncate 16).toNat = p.minor.toNat := by simp; omega
  rw [m1, m2] at hrev
  have key := atLeast_nat _ _ _ _ _ f.major.toNat f.minor.toNat f.build.toNat r.sp f.revision.toNat hrev
    (by cases hk <;> simp)
  have hr : r.major = f.major.toNat ∧ r.minor = f.minor.toNat ∧ r.build = f.build.toNat := by cases hk <;> simp
  unfold Release.atLeast release
  rw [hr.1, hr.2.1, hr.2.2]
  dsimp only
  unfold hiByte at key
  rw [← key]
  unfold osVersion
  rw [C39_cmp20]
  obtain ⟨fM, fm, fb, fr⟩ := f
  unfold Means Lex hiByte
  dsimp only
  simp only [Fields.mk.injEq, BitVec.toNat_eq, m1, m2]

/-- **C86**: major, minor and build are those of the running system. -/
theorem C86_os_fields (p : Peb) (h1 : p.major.toNat < 65536) (h2 : p.minor.toNat < 65536) :
    (unpack (osVersion p)).major.toNat = p.major.toNat ∧ (unpack (osVersion p)).minor.toNat = p.minor.toNat ∧
      (unpack (osVersion p)).build = p.build := by
  unfold osVersion
  rw [C39_fields]
  refine ⟨?_, ?_, rfl⟩
  · simp; omega
  · simp; omega

/-! ## Files -/

/-- the calls of an environment that all succeed and find the block `ms`, `ls` -/
def Good (e : Env) (ms ls : BitVec 32) : Prop :=
  e.find = .ok () ∧ e.load = .ok () ∧ (e.copy = .ok () ∨ (pack ⟨6, 0, 0, 0⟩).toNat ≤ e.os.toNat) ∧ e.query = .ok (some (some ms, some ls))

/-- the version of a `VS_FIXEDFILEINFO`: the high word of `MS` is the major, its low word the minor number, and so on -/
def versionOf (ms ls : BitVec 32) : Fields := ⟨ms.extractLsb' 16 16, ms.extractLsb' 0 16, ls.extractLsb' 16 16, ls.extractLsb' 0 16⟩

/-- **C86**: a module with a readable version block yields `S_OK` and exactly the four numbers of the block. -/
theorem C86_file (e : Env) (ms ls : BitVec 32) (h : Good e ms ls) : ofModule e = .ret 0 (pack (versionOf ms ls)) := by
  obtain ⟨h1, h2, h3, h4⟩ := h
  have hq : queryInfo e = .ret 0 (ms ++ ls) := by simp [queryInfo, h4, readInfo]
  have ha : afterLoad e = .ret 0 (ms ++ ls) := by
    unfold afterLoad
    split
    · exact hq
    · rename_i hn
      rcases h3 with h3 | h3
      · simp [h3, hq]
      · exact absurd h3 hn
  have hp : pack (versionOf ms ls) = ms ++ ls := by
    apply BitVec.eq_of_toNat_eq
    rw [pack_toNat]
    have := ms.isLt
    have := ls.isLt
    have e2 : (ms ++ ls).toNat = ms.toNat * 4294967296 + ls.toNat := by
      rw [BitVec.toNat_append, ← Nat.shiftLeft_add_eq_or_of_lt ls.isLt, Nat.shiftLeft_eq]
    rw [e2]
    simp only [versionOf, BitVec.extractLsb'_toNat, Nat.shiftRight_eq_div_pow]
    omega
  simp [ofModule, h1, h2, ha, hp]

/-- errors carry a non-zero 32-bit code -/
def CodesOk (e : Env) : Prop :=
  (∀ c, e.find = .err c → c ≠ 0 ∧ Is32 c) ∧ (∀ c, e.load = .err c → c ≠ 0 ∧ Is32 c) ∧ (∀ c, e.query = .err c → c ≠ 0 ∧ Is32 c)

theorem disk_neg : diskError < 0 := by decide

theorem fromStatus_neg {c : Int} (h0 : c ≠ 0) (h : Is32 c) : fromStatus .win c < 0 := by
  have := (C80_failed c h).1.2 h0
  simpa [failed] using this

/-- **C86**, partial: if every failing call leaves a non-zero error code, `GetFileVersion` returns `S_OK` only with the numbers of a version block that was
found and read; and if it returns an error, the version is 0.0 – the major and minor number, see `C86_half_fails`.  Missing: failing calls that leave
no error code (`C86_silent_fails`), version resources without a version block (`C86_empty_fails`). -/
theorem C86_honest_partial (e : Env) (hc : CodesOk e) (hr : Int) (v : BitVec 64) (h : ofModule e = .ret hr v) :
    (hr = 0 ∧ ∃ ms ls, e.query = .ok (some (some ms, some ls)) ∧ v = ms ++ ls) ∨ (hr < 0 ∧ hightPart v = 0) := by
  have hq : ∀ hr v, queryInfo e = .ret hr v → (hr = 0 ∧ ∃ ms ls, e.query = .ok (some (some ms, some ls)) ∧ v = ms ++ ls) ∨ (hr < 0 ∧ hightPart v = 0) := by
    intro hr v h
    unfold queryInfo at h
    cases hqr : e.query with
    | ok i =>
      rw [hqr] at h
      match i, h with
      | some (_, none), h => simp only [readInfo] at h; injection h with a b; subst a b; exact .inr ⟨disk_neg, by decide⟩
      | some (none, some ls), h =>
        simp only [readInfo] at h
        injection h with a b
        subst a b
        refine .inr ⟨disk_neg, ?_⟩
        apply BitVec.eq_of_toNat_eq
        have e2 : (0#32 ++ ls).toNat = ls.toNat := by
          rw [BitVec.toNat_append, ← Nat.shiftLeft_add_eq_or_of_lt ls.isLt]; simp
        have := ls.isLt
        simp only [hightPart, BitVec.extractLsb'_toNat, Nat.shiftRight_eq_div_pow, e2]
        have : (0 : BitVec 32).toNat = 0 := rfl
        rw [this]
        omega
      | some (some ms, some ls), h => simp only [readInfo] at h; injection h with a b; subst a b; exact .inl ⟨rfl, ms, ls, rfl, rfl⟩
    | err c =>
      rw [hqr] at h
      injection h with a b
      subst a b
      exact .inr ⟨fromStatus_neg (hc.2.2 c hqr).1 (hc.2.2 c hqr).2, by decide⟩
    | inPage => rw [hqr] at h; injection h with a b; subst a b; exact .inr ⟨disk_neg, by decide⟩
    | raise => rw [hqr] at h; cases h
  have ha : ∀ hr v, afterLoad e = .ret hr v → (hr = 0 ∧ ∃ ms ls, e.query = .ok (some (some ms, some ls)) ∧ v = ms ++ ls) ∨ (hr < 0 ∧ hightPart v = 0) := by
    intro hr v h
    unfold afterLoad at h
    split at h
    · exact hq hr v h
    · cases hcp : e.copy with
      | ok _ => rw [hcp] at h; exact hq hr v h
      | err _ => rw [hcp] at h; exact hq hr v h
      | inPage => rw [hcp] at h; injection h with a b; subst a b; exact .inr ⟨disk_neg, by decide⟩
      | raise => rw [hcp] at h; cases h
  unfold ofModule at h
  cases hf : e.find with
  | err c =>
    rw [hf] at h
    injection h with a b
    subst a b
    exact .inr ⟨fromStatus_neg (hc.1 c hf).1 (hc.1 c hf).2, by decide⟩
  | inPage => rw [hf] at h; injection h with a b; subst a b; exact .inr ⟨disk_neg, by decide⟩
  | raise => rw [hf] at h; cases h
  | ok _ =>
    rw [hf] at h
    cases hl : e.load with
    | err c =>
      rw [hl] at h
      injection h with a b
      subst a b
      exact .inr ⟨fromStatus_neg (hc.2.1 c hl).1 (hc.2.1 c hl).2, by decide⟩
    | inPage => rw [hl] at h; injection h with a b; subst a b; exact .inr ⟨disk_neg, by decide⟩
    | raise => rw [hl] at h; cases h
    | ok _ => rw [hl] at h; exact ha hr v h

/-- **C86**: an in-page error – a disconnected drive – is reported as an error in whichever call it happens; it never brings the process down. -/
theorem C86_inPage (e : Env) (h : e.find = .inPage ∨ (e.find = .ok () ∧ (e.load = .inPage ∨ (e.load = .ok () ∧
      ((e.copy = .ok () ∨ e.copy = .inPage) ∧ (e.query = .inPage ∨ ∃ a b, e.query = .ok (some (a, b)) ∧ (a = none ∨ b = none))))))) :
    ∃ v, ofModule e = .ret (fromStatus .win 1127) v := by
  have hq : (e.query = .inPage ∨ ∃ a b, e.query = .ok (some (a, b)) ∧ (a = none ∨ b = none)) → ∃ v, queryInfo e = .ret (fromStatus .win 1127) v := by
    rintro (h | ⟨a, b, h, hab⟩)
    · exact ⟨0, by simp [queryInfo, h, diskError]⟩
    · cases b with
      | none => exact ⟨0, by simp [queryInfo, h, readInfo, diskError]⟩
      | some b =>
        rcases hab with hab | hab
        · subst hab; exact ⟨0#32 ++ b, by simp [queryInfo, h, readInfo, diskError]⟩
        · cases hab
  rcases h with h | ⟨h1, h | ⟨h2, h3, h4⟩⟩
  · exact ⟨0, by simp [ofModule, h, diskError]⟩
  · exact ⟨0, by simp [ofModule, h1, h, diskError]⟩
  · obtain ⟨v, hv⟩ := hq h4
    by_cases hos : (pack ⟨6, 0, 0, 0⟩).toNat ≤ e.os.toNat
    · exact ⟨v, by simp only [ofModule, h1, h2, afterLoad, if_pos hos, hv]⟩
    · rcases h3 with h3 | h3
      · exact ⟨v, by simp only [ofModule, h1, h2, afterLoad, if_neg hos, h3, hv]⟩
      · exact ⟨0, by simp only [ofModule, h1, h2, afterLoad, if_neg hos, h3, diskError]⟩

/-- **C86**: the file is released exactly once whenever the function returns, and nothing is released that was not loaded. -/
theorem C86_paired (lib : Except Int Unit) (e : Env) (hr : Int) (v : BitVec 64) (h : (ofFile lib e).1 = .ret hr v) :
    (ofFile lib e).2.1 = (ofFile lib e).2.2 ∧ ((ofFile lib e).2.1 = 1 ↔ lib = .ok ()) := by
  cases lib with
  | error c => exact ⟨rfl, by simp [ofFile]⟩
  | ok u =>
    cases hm : ofModule e with
    | ret a b => simp [ofFile, hm]
    | crash => simp [ofFile, hm] at h

/-! ## Where the claim is not met -/

/-- A failing call that leaves `GetLastError() == 0` – `VerQueryValueW` is not documented to set it – yields `S_OK` with the version 0. -/
theorem C86_silent_fails (os : BitVec 64) (h : (pack ⟨6, 0, 0, 0⟩).toNat ≤ os.toNat) : ofModule ⟨.ok (), .ok (), os, .ok (), .err 0⟩ = .ret 0 0 := by
  simp only [ofModule, afterLoad, h, if_true, queryInfo]
  decide

/-- A version resource without `VS_FIXEDFILEINFO`: the query succeeds with length 0, which is not tested; the process fails. -/
theorem C86_empty_fails (os : BitVec 64) (h : (pack ⟨6, 0, 0, 0⟩).toNat ≤ os.toNat) : ofModule ⟨.ok (), .ok (), os, .ok (), .ok none⟩ = .crash := by
  simp only [ofModule, afterLoad, h, if_true, queryInfo, readInfo]

/-- An in-page error between the two reads leaves an error together with half a version. -/
theorem C86_half_fails (os : BitVec 64) (h : (pack ⟨6, 0, 0, 0⟩).toNat ≤ os.toNat) :
    ∃ hr v, ofModule ⟨.ok (), .ok (), os, .ok (), .ok (some (none, some 7))⟩ = .ret hr v ∧ hr < 0 ∧ v ≠ 0 :=
  ⟨diskError, 0#32 ++ 7#32, by simp only [ofModule, afterLoad, h, if_true, queryInfo, readInfo]; rfl, disk_neg, by decide⟩

/-! ## Examples -/

/-- XP with service pack 2 is at least SP2 but not SP3; Windows 11 is at least every constant -/
theorem C86_example :
    cmp20 .ge (osVersion ⟨5, 1, 2600, 0x200⟩) (pack ⟨5, 1, 2600, 2180⟩) = true ∧
      cmp20 .ge (osVersion ⟨5, 1, 2600, 0x200⟩) (pack ⟨5, 1, 2600, 5512⟩) = false ∧
      cmp20 .ge (osVersion ⟨10, 0, 22000, 0⟩) (pack ⟨10, 0, 20348, 0⟩) = true ∧
      unpack (osVersion ⟨5, 2, 3790, 0x200⟩) = ⟨5, 2, 3790, 1830⟩ := by decide +kernel

/-- a file with the version 10.0.19041.1 -/
theorem C86_example_file : ofFile (.ok ()) ⟨.ok (), .ok (), pack ⟨10, 0, 19041, 0⟩, .ok (), .ok (some (some 0x000A0000, some 0x4A610001))⟩ =
    (.ret 0 (pack ⟨10, 0, 19041, 1⟩), 1, 1) := by decide +kernel

#print axioms C86_atLeast
#print axioms C86_os_fields
#print axioms C86_file
#print axioms C86_honest_partial
#print axioms C86_inPage
#print axioms C86_paired
#print axioms C86_silent_fails
#print axioms C86_empty_fails
#print axioms C86_half_fails
#print axioms C86_example
#print axioms C86_example_file

end Verif.FileVer
