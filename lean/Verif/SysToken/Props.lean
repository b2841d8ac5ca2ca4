import Verif.SysToken.Model
/-!
# C85 – token searches pick the documented token and leave no handle open
-/
namespace Verif.SysToken

/-! ## Specification -/

/-- A monitor for handles: opened handles are new, only open handles are used and closed.  The result is what is open at the end; `none` is a misuse. -/
def monitor : List Nat → List Ev → Option (List Nat)
  | live, [] => some live
  | live, .opened h :: es => if h ∈ live then none else monitor (h :: live) es
  | live, .used h :: es => if h ∈ live then monitor live es else none
  | live, .closed h :: es => if h ∈ live then monitor (live.erase h) es else none

/-- the file name of a path is `winlogon.exe`, in any case -/
def IsWinlogon (exe : List Nat) : Prop :=
  ∃ dir file, exe = dir ++ file ∧ (dir = [] ∨ dir.getLast? = some 92) ∧ 92 ∉ file ∧
    file.map (fun c => if 65 ≤ c ∧ c ≤ 90 then c + 32 else c) = [119, 105, 110, 108, 111, 103, 111, 110, 46, 101, 120, 101]

/-- a process the search accepts -/
def Eligible (session : Nat) (p : Proc) : Prop := IsWinlogon p.exe ∧ p.canOpen = true ∧ p.token = some (some session)

/-- `r` is the first accepted process of the list, with its token; there is none if nothing was found -/
def First (session : Nat) (ps : List Proc) : Option (Nat × Proc) → Prop
  | none => ∀ q ∈ ps, ¬ Eligible session q
  | some r => ∃ pre post, ps = pre ++ r.2 :: post ∧ Eligible session r.2 ∧ ∀ q ∈ pre, ¬ Eligible session q

/-! ## The name test -/

theorem baseName_not_mem (l : List Nat) : 92 ∉ baseName l := by
  induction l with
  | nil => simp [baseName]
  | cons c cs ih =>
    unfold baseName
    split
    · exact ih
    · rename_i h
      split
      · exact h
      · rename_i h2
        intro hm
        rcases List.mem_cons.1 hm with hm | hm
        · exact h2 hm.symm
        · exact h hm

theorem baseName_split (l : List Nat) : ∃ dir, l = dir ++ baseName l ∧ (dir = [] ∨ dir.getLast? = some 92) := by
  induction l with
  | nil => exact ⟨[], rfl, .inl rfl⟩
  | cons c cs ih =>
    unfold baseName
    split
    · rename_i h
      obtain ⟨dir, h1, h2⟩ := ih
      refine ⟨c :: dir, by rw [List.cons_append, ← h1], .inr ?_⟩
      rcases h2 with h2 | h2
      · exfalso
        rw [h2, List.nil_append] at h1
        exact baseName_not_mem cs (h1 ▸ h)
      · cases dir with
        | nil => cases h2
        | cons a as => rw [List.getLast?_cons_cons]; exact h2
    · split
      · rename_i h2
        exact ⟨[c], rfl, .inr (by simp [h2])⟩
      · exact ⟨[], rfl, .inl rfl⟩

theorem baseName_of {dir file : List Nat} (hd : dir = [] ∨ dir.getLast? = some 92) (hf : 92 ∉ file) : baseName (dir ++ file) = file := by
  have nosep : ∀ f : List Nat, 92 ∉ f → baseName f = f := by
    intro f h
    cases f with
    | nil => rfl
    | cons c cs =>
      simp only [List.mem_cons, not_or] at h
      unfold baseName
      rw [if_neg h.2, if_neg (fun e => h.1 e.symm)]
  rcases hd with hd | hd
  · rw [hd]; exact nosep file hf
  · induction dir with
    | nil => cases hd
    | cons c cs ih =>
      rw [List.cons_append]
      unfold baseName
      by_cases hm : 92 ∈ cs ++ file
      · rw [if_pos hm]
        have : cs ≠ [] := by
          intro e; rw [e] at hm; exact hf hm
        cases cs with
        | nil => exact absurd rfl this
        | cons a as => exact ih (by rw [List.getLast?_cons_cons] at hd; exact hd)
      · rw [if_neg hm]
        have hcs : cs = [] := by
          cases cs with
          | nil => rfl
          | cons a as =>
            rw [List.getLast?_cons_cons] at hd
            exact absurd (List.mem_append_left _ (List.mem_of_getLast? hd)) hm
        rw [hcs] at hd ⊢
        simp at hd
        simp [hd]

theorem named_iff (p : Proc) : named p = true ↔ IsWinlogon p.exe := by
  unfold named IsWinlogon
  rw [decide_eq_true_eq]
  constructor
  · intro h
    obtain ⟨dir, h1, h2⟩ := baseName_split p.exe
    exact ⟨dir, _, h1, h2, baseName_not_mem _, h⟩
  · rintro ⟨dir, file, h1, h2, h3, h4⟩
    rw [h1, baseName_of h2 h3]
    exact h4

/-! ## The search -/

theorem monitor_append {l : List Nat} {a b : List Ev} : monitor l (a ++ b) = (monitor l a).bind (fun m => monitor m b) := by
  induction a generalizing l with
  | nil => rfl
  | cons e es ih =>
    cases e with
    | opened h => simp only [List.cons_append, monitor]; split <;> simp [ih]
    | used h => simp only [List.cons_append, monitor]; split <;> simp [ih]
    | closed h => simp only [List.cons_append, monitor]; split <;> simp [ih]

/-- the handles of the search are opened on top of older ones (numbers below `n`) and all closed, but for the published one -/
theorem search_handles (session : Nat) (other : Bool) (ps : List Proc) : ∀ (n : Nat) (live : List Nat), (∀ h ∈ live, h < n) →
    monitor live (search session other n ps).1 = some ((search session other n ps).2.elim live (fun r => r.1 :: live)) := by
  induction ps with
  | nil => intro n live _; rfl
  | cons p ps ih =>
    intro n live hl
    have hn : n ∉ live := fun h => Nat.lt_irrefl _ (hl n h)
    have hn1 : n + 1 ∉ live := fun h => by have := hl _ h; omega
    unfold search
    split
    · exact ih n live hl
    · split
      · exact ih n live hl
      · cases p.token with
        | none =>
          simp only [List.cons_append, List.nil_append, monitor, hn, List.mem_cons, true_or, if_true, if_false, List.erase_cons_head]
          exact ih (n + 1) live (fun h hh => by have := hl h hh; omega)
        | some s =>
          have hne : (n == n + 1) = false := by simp
          have hne' : ¬ (n = n + 1) := by omega
          have hne2 : (n + 1 == n) = false := by simp
          dsimp only
          split
          · simp [monitor, hn, hn1]
            exact ih (n + 2) live (fun h hh => by have := hl h hh; omega)
          · split
            · simp [monitor, hn, hn1]
            · simp [monitor, hn, hn1]

/-- **C85**: whatever the operating system answers and whatever other threads publish, `GetSystemToken` uses only open handles and closes every handle
it opened exactly once, except the token it publishes. -/
theorem C85_handles (e : Env) : monitor [] (getSystem e).1 = some ((getSystem e).2.elim [] (fun r => [r.1])) := by
  unfold getSystem
  split
  · rfl
  · split
    · rfl
    · simp only
      have h := search_handles e.session e.other e.procs 1 [0] (fun h hh => by simp at hh; omega)
      have h1 : ∀ r, (search e.session e.other 1 e.procs).2 = some r → r.1 ≠ 0 := by
        have aux : ∀ (ps : List Proc) (n : Nat), ∀ r, (search e.session e.other n ps).2 = some r → n < r.1 := by
          intro ps
          induction ps with
          | nil => intro n r h; cases h
          | cons p ps ih =>
            intro n r h
            unfold search at h
            split at h
            · exact ih n r h
            · split at h
              · exact ih n r h
              · cases ht : p.token with
                | none => rw [ht] at h; have := ih (n + 1) r h; omega
                | some s =>
                  rw [ht] at h
                  dsimp only at h
                  split at h
                  · have := ih (n + 2) r h; omega
                  · split at h
                    · cases h
                    · injection h with h; rw [← h]; simp
        intro r hr
        have := aux e.procs 1 r hr
        omega
      rw [List.append_assoc, monitor_append]
      have : monitor [] [Ev.opened 0, Ev.used 0] = some [0] := by decide
      rw [this, Option.bind_some, monitor_append, h, Option.bind_some]
      cases hr : (search e.session e.other 1 e.procs).2 with
      | none => simp [monitor]
      | some r =>
        have h0 := h1 r hr
        have h0' : ¬ (0 = r.1) := fun e => h0 e.symm
        simp only [Option.elim, monitor, List.mem_cons, h0', true_or, or_true, if_true]
        rw [List.erase_cons_tail (by simp [h0]), List.erase_cons_head]

theorem search_first (session : Nat) (ps : List Proc) : ∀ n : Nat,
    First session ps (search session false n ps).2 := by
  induction ps with
  | nil => intro n; simp [search, First]
  | cons p ps ih =>
    intro n
    have skip : ¬ Eligible session p → ∀ m, First session (p :: ps) (search session false m ps).2 := by
      intro hp m
      have := ih m
      cases hs : (search session false m ps).2 with
      | none =>
        rw [hs] at this
        intro q hq
        rcases List.mem_cons.1 hq with hq | hq
        · rw [hq]; exact hp
        · exact this q hq
      | some r =>
        rw [hs] at this
        obtain ⟨pre, post, h1, h2, h3⟩ := this
        refine ⟨p :: pre, post, by rw [h1]; rfl, h2, ?_⟩
        intro q hq
        rcases List.mem_cons.1 hq with hq | hq
        · rw [hq]; exact hp
        · exact h3 q hq
    unfold search
    split
    · rename_i h
      refine skip (fun he => ?_) n
      rw [(named_iff p).2 he.1] at h
      cases h
    · rename_i hnm
      split
      · rename_i h
        refine skip (fun he => ?_) n
        rw [he.2.1] at h
        cases h
      · rename_i hop
        cases ht : p.token with
        | none => exact skip (fun he => by have := he.2.2; rw [ht] at this; cases this) (n + 1)
        | some s =>
          dsimp only
          split
          · rename_i hs
            exact skip (fun he => by have := he.2.2; rw [ht] at this; injection this with this; exact hs this) (n + 2)
          · rename_i hs
            rw [if_neg (by simp)]
            refine ⟨[], ps, rfl, ⟨(named_iff p).1 (by simpa using hnm), by simpa using hop, ?_⟩, fun q hq => by cases hq⟩
            rw [ht]
            exact congrArg some (Classical.not_not.1 hs)

/-- **C85**: the token published is that of the first process of the snapshot whose file name is `winlogon.exe` (in any case), whose token can be read and
which belongs to the session of the caller; nothing is published exactly if there is no such process.  (No cached token, no other thread.) -/
theorem C85_first (e : Env) (hc : e.cached = false) (hs : e.snapshot = true) (ho : e.other = false) :
    First e.session e.procs (getSystem e).2 := by
  have := search_first e.session e.procs 1
  unfold getSystem
  simp only [hc, hs, ho, Bool.false_eq_true, if_false, Bool.not_true]
  exact this

/-- **C85**, partial: if every process of the session that calls itself `winlogon.exe` and can be opened belongs to the system account, the token is a
system token.  Missing: the function does not check it (`C85_system_fails`). -/
theorem C85_system_partial (e : Env) (hc : e.cached = false) (hs : e.snapshot = true) (ho : e.other = false)
    (hsys : ∀ p ∈ e.procs, Eligible e.session p → p.system = true) (r : Nat × Proc) (h : (getSystem e).2 = some r) : r.2.system = true := by
  have := C85_first e hc hs ho
  rw [h] at this
  obtain ⟨pre, post, h1, h2, _⟩ := this
  exact hsys r.2 (by rw [h1]; simp) h2

/-- any user's program called `winlogon.exe` -/
def impostor : Proc := ⟨[87, 105, 110, 76, 111, 103, 111, 110, 46, 101, 120, 101], true, some (some 1), false⟩
/-- the real one -/
def genuine : Proc := ⟨winlogon, true, some (some 1), true⟩

/-- A program of an ordinary user that is called `winlogon.exe` and comes first in the snapshot is taken for the system's: `GetSystemToken` publishes,
for the rest of the process's life, a token without system rights although the genuine process is in the snapshot. -/
theorem C85_system_fails : ∃ e : Env, (∃ p ∈ e.procs, p.system = true ∧ Eligible e.session p) ∧ ∃ r, (getSystem e).2 = some r ∧ r.2.system = false :=
  ⟨⟨false, true, [impostor, genuine], 1, false⟩, ⟨genuine, by decide, rfl, ⟨[], winlogon, rfl, .inl rfl, by decide, by decide⟩, rfl, rfl⟩,
    (2, impostor), by decide, rfl⟩

/-! ## Limited and impersonation tokens -/

/-- **C85**: `GetLimitedToken` leaves no handle open but the one it publishes, and uses none after closing it. -/
theorem C85_limited_handles (e : LimEnv) : monitor [] (getLimited e).1 = some ((getLimited e).2.elim [] (fun r => [r.1])) := by
  rcases e with ⟨c, o, el, l, x⟩
  rcases el with _ | el
  · cases c <;> cases o <;> simp [getLimited, monitor]
  · cases c <;> cases o <;> cases el <;> cases l <;> cases x <;> decide

/-- **C85**: a token is published exactly if the type of the own token is known and it is limited – the own token –, or full with a readable linked token
– that one. -/
theorem C85_limited (e : LimEnv) (r : Nat × Src) :
    (getLimited e).2 = some r ↔ e.cached = false ∧ e.canOpen = true ∧ e.other = false ∧
      ((e.elev = some .limited ∧ r = (0, .own)) ∨ (e.elev = some .full ∧ e.linked = true ∧ r = (1, .linked))) := by
  rcases e with ⟨c, o, el, l, x⟩
  rcases el with _ | el
  · cases c <;> cases o <;> simp [getLimited]
  · cases c <;> cases o <;> cases el <;> cases l <;> cases x <;> simp [getLimited, eq_comm]

/-- **C85**: `GetImpersonationSystemToken` uses the system token without closing it and leaves no other handle open but the one it publishes. -/
theorem C85_impersonation (cached dup other : Bool) (t n : Nat) (h : n ≠ t) :
    monitor [t] (getImpersonation cached (some t) dup other n).1 =
        some ((getImpersonation cached (some t) dup other n).2.elim [t] (fun h => [h, t])) ∧
      ((getImpersonation cached (some t) dup other n).2 = some n ↔ cached = false ∧ dup = true ∧ other = false) := by
  cases cached <;> cases dup <;> cases other <;> simp [getImpersonation, monitor, h]

/-! ## Examples -/

/-- `C:\x\WINLOGON.EXE` is recognised, `winlogon.exe.bak` and `notwinlogon.exe` are not -/
example : named ⟨[67, 58, 92, 120, 92] ++ [87, 73, 78, 76, 79, 71, 79, 78, 46, 69, 88, 69], true, none, true⟩ = true := by decide
example : named ⟨winlogon ++ [46, 98, 97, 107], true, none, true⟩ = false ∧ named ⟨[110, 111, 116] ++ winlogon, true, none, true⟩ = false := by decide

/-- a process of another session is passed over, its handles are closed -/
theorem C85_example : getSystem ⟨false, true, [⟨winlogon, true, some (some 0), true⟩, genuine], 1, false⟩ =
    ([.opened 0, .used 0, .opened 1, .used 1, .opened 2, .used 2, .closed 2, .closed 1,
      .opened 3, .used 3, .opened 4, .used 4, .closed 3, .closed 0], some (4, genuine)) := by decide

#print axioms C85_handles
#print axioms C85_first
#print axioms C85_system_partial
#print axioms C85_system_fails
#print axioms C85_limited_handles
#print axioms C85_limited
#print axioms C85_impersonation
#print axioms C85_example

end Verif.SysToken
