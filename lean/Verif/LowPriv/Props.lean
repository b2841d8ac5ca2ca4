import Verif.LowPriv.Model

/-! C76: `LowPrivilegeCreateProcessW` leaves the thread and the handles as they were and makes at most one process - but not always one with low rights. -/
namespace Verif.LowPriv

/-- what Windows promises: a failed call has a last error other than 0, and `ERROR_NO_TOKEN` is said only of a thread without token -/
structure Sane (env : Env) : Prop where
  openThread0 : env.openThread ≠ some 0#32
  openThread1 : env.openThread ≠ some 1008#32
  set0 : env.set ≠ some 0#32
  asUser0 : env.asUser ≠ some 0#32
  create0 : env.create ≠ some 0#32

/-- the elevation of the process, as far as the function knows -/
def known (env : Env) (s : Os) : Elev :=
  match s.cached with
  | some e => e
  | none => match env.openProc, env.query with
    | true, some e => e
    | _, _ => .default

/-- everything needed to use the limited token `l` is there -/
def Reaches (env : Env) (s : Os) (l : Nat) : Prop := known env s = .full ∧ (∃ i, env.impTok = some i) ∧ env.limTok = some l ∧ env.dup = none

/-- the thread does take on the system token -/
def Impersonates (env : Env) (s : Os) : Prop := env.set = none ∧ (s.thread = none ∨ env.openThread = none)

theorem close_open (s : Os) (h : Nat) (l : List Nat) (e : s.open_ = h :: l) : closeHandle s h = some { s with open_ := l } := by
  unfold closeHandle; rw [e]; simp

/-! ## `HRESULT`s -/

theorem ok_hr {e : Err} (h : e ≠ 0#32) : succeeded (hrFromWin32 e) = false := by
  unfold hrFromWin32 succeeded
  split
  · rename_i hle
    have : e.toInt ≠ 0 := fun h0 => h (BitVec.eq_of_toInt_eq (by simpa using h0))
    simp; omega
  · simp only [decide_eq_false_iff_not, Int.not_le]
    have : ((e &&& 0xFFFF#32) ||| 0x80070000#32).msb = true := by
      rw [BitVec.msb_or]; simp; right; decide
    exact (BitVec.msb_eq_toInt ▸ this |> of_decide_eq_true)

/-! ## Pieces -/

theorem elevation_eq (env : Env) (s : Os) : ∃ s', elevation env s = some (s', known env s) ∧ s'.open_ = s.open_ ∧ s'.thread = s.thread ∧ s'.imp = s.imp ∧ s'.assign = s.assign ∧
    s'.procs = s.procs ∧ s'.cached = some (known env s) := by
  unfold elevation known
  cases hc : s.cached with
  | some e => exact ⟨s, rfl, rfl, rfl, rfl, rfl, rfl, hc⟩
  | none =>
    dsimp only
    unfold getElev
    cases hp : env.openProc with
    | false => exact ⟨_, rfl, rfl, rfl, rfl, rfl, rfl, rfl⟩
    | true =>
      rw [if_pos rfl]
      unfold openHandle; dsimp only
      rw [close_open _ _ _ rfl]
      cases hq : env.query with
      | none => exact ⟨_, rfl, rfl, rfl, rfl, rfl, rfl, rfl⟩
      | some e => exact ⟨_, rfl, rfl, rfl, rfl, rfl, rfl, rfl⟩

/-- what the constructor does -/
structure Entered (env : Env) (s : Os) (i : Nat) (s' : Os) (sc : Scope) : Prop where
  handles : s'.open_ = (match sc.prev with | some (h, _) => h :: s.open_ | none => s.open_)
  thread : s'.thread = (if sc.status = 0#32 then some i else s.thread)
  prev : sc.status = 0#32 → sc.prev.map (·.2) = s.thread
  status : sc.status = 0#32 ↔ Impersonates env s
  same : s'.imp = s.imp ∧ s'.assign = s.assign ∧ s'.procs = s.procs

theorem setTo_entered {env : Env} (hs : Sane env) (s s' : Os) (i : Nat) (prev : Option (Nat × Nat)) (h1 : s'.open_ = (match prev with | some (h, _) => h :: s.open_ | none => s.open_))
    (h2 : s'.thread = s.thread) (h3 : prev.map (·.2) = s.thread) (h4 : s.thread = none ∨ env.openThread = none) (h5 : s'.imp = s.imp ∧ s'.assign = s.assign ∧ s'.procs = s.procs) :
    Entered env s i (enter.setTo env s' i prev).1 (enter.setTo env s' i prev).2 := by
  unfold enter.setTo
  cases he : env.set with
  | none => exact ⟨h1, by simp, fun _ => h3, by simp [Impersonates, he, h4], h5⟩
  | some e =>
    have e0 : e ≠ 0#32 := fun h => hs.set0 (h ▸ he)
    exact ⟨h1, by simp [e0, h2], fun h => absurd h e0, by simp [Impersonates, he, e0], h5⟩

theorem enter_entered {env : Env} (hs : Sane env) (s : Os) (i : Nat) : Entered env s i (enter env s i).1 (enter env s i).2 := by
  unfold enter
  split
  · rename_i t ht
    split
    · rename_i e he
      have e1 : e ≠ errNoToken := fun h => hs.openThread1 (by rw [he, h]; rfl)
      have e0 : e ≠ 0#32 := fun h => hs.openThread0 (h ▸ he)
      rw [if_pos e1]
      exact ⟨rfl, by simp [e0], fun h => absurd h e0, by simp [Impersonates, ht, he, e0], rfl, rfl, rfl⟩
    · rename_i he
      exact setTo_entered hs _ _ _ _ rfl rfl (by rw [ht]; rfl) (.inr he) ⟨rfl, rfl, rfl⟩
  · rename_i ht
    exact setTo_entered hs _ _ _ _ rfl rfl (by rw [ht]; rfl) (.inl ht) ⟨rfl, rfl, rfl⟩

/-- what happens between -/
structure Inside (env : Env) (s s' : Os) (r : Option (BitVec 32)) : Prop where
  handles : s'.open_ = s.open_
  same : s'.imp = s.imp ∧ s'.assign = s.assign ∧ s'.thread = s.thread
  procs : s'.procs = s.procs ++ (match env.limTok, env.dup, env.asUser with | some l, none, none => [⟨.tok l, s.thread⟩] | _, _, _ => [])
  res : r = (match env.limTok, env.dup, env.asUser with
    | some _, none, none => some 0#32
    | some _, none, some e => if e = errAccessDenied ∨ e = errPrivilegeNotHeld then none else some (hrFromWin32 e)
    | _, _, _ => none)

theorem inScope_inside (env : Env) (s : Os) : ∃ s' r, inScope env s = some (s', r) ∧ Inside env s s' r := by
  unfold inScope
  cases hl : env.limTok with
  | none => exact ⟨_, _, rfl, rfl, ⟨rfl, rfl, rfl⟩, by simp [hl], by simp [hl]⟩
  | some l =>
    dsimp only
    cases hd : env.dup with
    | some e => exact ⟨_, _, rfl, rfl, ⟨rfl, rfl, rfl⟩, by simp [hl, hd], by simp [hl, hd]⟩
    | none =>
      dsimp only
      unfold openHandle; dsimp only
      cases ha : env.asUser with
      | none =>
        dsimp only
        rw [close_open _ _ _ rfl]
        exact ⟨_, _, rfl, rfl, ⟨rfl, rfl, rfl⟩, by simp [hl, hd, ha], by simp [hl, hd, ha]⟩
      | some e =>
        dsimp only
        rw [close_open _ _ _ rfl]
        split
        · rename_i h; exact ⟨_, _, rfl, rfl, ⟨rfl, rfl, rfl⟩, by simp [hl, hd, ha], by simp [hl, hd, ha, h]⟩
        · rename_i h; exact ⟨_, _, rfl, rfl, ⟨rfl, rfl, rfl⟩, by simp [hl, hd, ha], by simp [hl, hd, ha, h]⟩

theorem adjust_same (s : Os) : (adjust s).open_ = s.open_ ∧ (adjust s).thread = s.thread ∧ (adjust s).procs = s.procs := by
  unfold adjust; split <;> exact ⟨rfl, rfl, rfl⟩

theorem leave_eq (env : Env) (s : Os) (sc : Scope) (l : List Nat) (h : s.open_ = (match sc.prev with | some (h, _) => h :: l | none => l)) :
    ∃ s', leave env s sc = some s' ∧ s'.open_ = l ∧ s'.imp = s.imp ∧ s'.assign = s.assign ∧ s'.procs = s.procs ∧
      s'.thread = (if sc.status = 0#32 ∧ env.restore = none then sc.prev.map (·.2) else s.thread) := by
  unfold leave
  by_cases h0 : sc.status = 0#32
  · cases hr : env.restore with
    | none =>
      simp only [h0, if_true]
      cases hp : sc.prev with
      | none => rw [hp] at h; exact ⟨_, rfl, h, rfl, rfl, rfl, by simp⟩
      | some p =>
        rw [hp] at h
        dsimp only
        rw [close_open { s with thread := Option.map (fun x => x.2) (some p) } _ l h]
        exact ⟨_, rfl, rfl, rfl, rfl, rfl, by simp⟩
    | some e =>
      simp only [h0, if_true]
      cases hp : sc.prev with
      | none => rw [hp] at h; exact ⟨_, rfl, h, rfl, rfl, rfl, by simp⟩
      | some p =>
        rw [hp] at h
        dsimp only
        rw [close_open _ _ l h]
        exact ⟨_, rfl, rfl, rfl, rfl, rfl, by simp⟩
  · simp only [h0, if_false]
    cases hp : sc.prev with
    | none => rw [hp] at h; exact ⟨_, rfl, h, rfl, rfl, rfl, by simp⟩
    | some p =>
      rw [hp] at h
      dsimp only
      rw [close_open _ _ l h]
      exact ⟨_, rfl, rfl, rfl, rfl, rfl, by simp⟩

/-- the token the thread has inside the scope -/
def inside (env : Env) (s : Os) (i : Nat) [Decidable (Impersonates env s)] : Option Nat := if Impersonates env s then some i else s.thread

instance (env : Env) (s : Os) : Decidable (Impersonates env s) := inferInstanceAs (Decidable (_ ∧ _))

/-- the loop that runs once (48-111), when the function goes on to the scope -/
structure Tried (env : Env) (s : Os) (i : Nat) (s' : Os) (r : Option (BitVec 32)) : Prop where
  handles : s'.open_ = s.open_
  thread : s'.thread = (if Impersonates env s ∧ env.restore ≠ none then some i else s.thread)
  imp : ∀ t, s'.imp t = true ↔ s.imp t = true ∨ inside env s i = some t
  assign : ∀ t, s'.assign t = true ↔ s.assign t = true ∨ inside env s i = some t
  procs : s'.procs = s.procs ++ (match env.limTok, env.dup, env.asUser with | some l, none, none => [⟨.tok l, inside env s i⟩] | _, _, _ => [])
  res : r = (match env.limTok, env.dup, env.asUser with
    | some _, none, none => some 0#32
    | some _, none, some e => if e = errAccessDenied ∨ e = errPrivilegeNotHeld then none else some (hrFromWin32 e)
    | _, _, _ => none)

theorem adjust_imp (s : Os) (t : Nat) : ((adjust s).imp t = true ↔ s.imp t = true ∨ s.thread = some t) ∧ ((adjust s).assign t = true ↔ s.assign t = true ∨ s.thread = some t) := by
  unfold adjust
  cases h : s.thread with
  | none => simp
  | some u =>
    simp only [Bool.or_eq_true, decide_eq_true_eq, Option.some.injEq]
    constructor <;> (constructor <;> (rintro (h | h) <;> simp [h]))

theorem tried {env : Env} (hs : Sane env) (s : Os) (i : Nat) (hf : known env s = .full) (hi : env.impTok = some i) : ∃ s' r, tryLimited env s = some (s', r) ∧ Tried env s i s' r := by
  unfold tryLimited
  obtain ⟨s1, e1, o1, t1, i1, a1, p1, _⟩ := elevation_eq env s
  rw [e1]; dsimp only
  rw [if_neg (by rw [hf]; simp), hi]; dsimp only
  have E := enter_entered hs s1 i
  have im : Impersonates env s1 ↔ Impersonates env s := by unfold Impersonates; rw [t1]
  generalize enter env s1 i = en at E
  obtain ⟨s2, sc⟩ := en
  dsimp only at E ⊢
  obtain ⟨ao, at_, ap⟩ := adjust_same s2
  obtain ⟨s3, r, e3, I⟩ := inScope_inside env (adjust s2)
  rw [e3]; dsimp only
  obtain ⟨s4, e4, o4, i4, a4, p4, t4⟩ := leave_eq env s3 sc s1.open_ (by rw [I.handles, ao]; exact E.handles)
  rw [e4]
  have th : s2.thread = inside env s i := by
    rw [E.thread, t1]; unfold inside
    by_cases h : Impersonates env s
    · rw [if_pos h, if_pos (E.status.2 (im.2 h))]
    · rw [if_neg h, if_neg (fun h' => h (im.1 (E.status.1 h')))]
  refine ⟨s4, r, rfl, o4.trans o1, ?_, fun t => ?_, fun t => ?_, ?_, I.res⟩
  · rw [t4, I.same.2.2, at_, E.thread]
    by_cases h : Impersonates env s
    · have h0 := E.status.2 (im.2 h)
      have hp := E.prev h0
      cases hr : env.restore with
      | none => simp [h0, hp, t1]
      | some e => simp [h0, h]
    · have h0 : ¬ sc.status = 0#32 := fun h' => h (im.1 (E.status.1 h'))
      simp [h0, h, t1]
  · rw [i4, I.same.1, (adjust_imp s2 t).1, th, E.same.1, i1]
  · rw [a4, I.same.2.1, (adjust_imp s2 t).2, th, E.same.2.1, a1]
  · rw [p4, I.procs, ap, at_, E.same.2.2, p1, th]

/-- ... and when it does not -/
theorem not_tried (env : Env) (s : Os) (h : known env s ≠ .full ∨ env.impTok = none) : ∃ s', tryLimited env s = some (s', none) ∧ s'.open_ = s.open_ ∧ s'.thread = s.thread ∧
    s'.imp = s.imp ∧ s'.assign = s.assign ∧ s'.procs = s.procs := by
  unfold tryLimited
  obtain ⟨s1, e1, o1, t1, i1, a1, p1, _⟩ := elevation_eq env s
  rw [e1]; dsimp only
  by_cases hf : known env s = .full
  · rw [if_neg (by rw [hf]; simp)]
    rcases h with h | h
    · exact absurd hf h
    · rw [h]; exact ⟨s1, rfl, o1, t1, i1, a1, p1⟩
  · rw [if_pos hf]; exact ⟨s1, rfl, o1, t1, i1, a1, p1⟩

theorem fallback_same (env : Env) (s : Os) : (fallback env s).1.open_ = s.open_ ∧ (fallback env s).1.thread = s.thread ∧ (fallback env s).1.imp = s.imp ∧ (fallback env s).1.assign = s.assign := by
  unfold fallback; split <;> exact ⟨rfl, rfl, rfl, rfl⟩

theorem cases_tried (env : Env) (s : Os) : (∃ i, known env s = .full ∧ env.impTok = some i) ∨ (known env s ≠ .full ∨ env.impTok = none) := by
  by_cases h : known env s = .full
  · cases hi : env.impTok with
    | none => exact .inr (.inr rfl)
    | some i => exact .inl ⟨i, h, rfl⟩
  · exact .inr (.inl h)

/-! ## The property -/

/-- Every way through the function closes each handle it opened, once. -/
theorem C76_handles {env : Env} (hs : Sane env) (s : Os) : ∃ s' hr, lowPriv env s = some (s', hr) ∧ s'.open_ = s.open_ := by
  unfold lowPriv
  rcases cases_tried env s with ⟨i, hf, hi⟩ | hn
  · obtain ⟨s1, r, e, T⟩ := tried hs s i hf hi
    rw [e]
    cases r with
    | none => exact ⟨_, _, rfl, (fallback_same env s1).1.trans T.handles⟩
    | some r => exact ⟨_, _, rfl, T.handles⟩
  · obtain ⟨s1, e, o, _⟩ := not_tried env s hn
    rw [e]; exact ⟨_, _, rfl, (fallback_same env s1).1.trans o⟩

theorem lp_none {env : Env} {s s1 s' : Os} {hr : BitVec 32} (e : tryLimited env s = some (s1, none)) (h : lowPriv env s = some (s', hr)) :
    s' = (fallback env s1).1 ∧ hr = (fallback env s1).2 := by
  unfold lowPriv at h; rw [e] at h
  have := Option.some.inj h
  exact ⟨(congrArg Prod.fst this).symm, (congrArg Prod.snd this).symm⟩

theorem lp_some {env : Env} {s s1 s' : Os} {r hr : BitVec 32} (e : tryLimited env s = some (s1, some r)) (h : lowPriv env s = some (s', hr)) : s' = s1 ∧ hr = r := by
  unfold lowPriv at h; rw [e] at h
  have := Option.some.inj h
  exact ⟨(congrArg Prod.fst this).symm, (congrArg Prod.snd this).symm⟩

/-- when the loop is left by `break`, it has made no process -/
theorem Tried.no_proc {env : Env} {s s1 : Os} {i : Nat} (T : Tried env s i s1 none) : s1.procs = s.procs := by
  have rs := T.res
  rw [T.procs]
  split
  · rename_i h1 h2 h3; rw [h1, h2, h3] at rs; cases rs
  · simp

/-- If the destructor's `SetThreadToken` works, the thread has the token it had before. Partial: its failure is not noticed (`C76_restore_fails`). -/
theorem C76_restored_partial {env : Env} (hs : Sane env) {s s' : Os} {hr : BitVec 32} (h : lowPriv env s = some (s', hr)) (ok : env.restore = none) : s'.thread = s.thread := by
  rcases cases_tried env s with ⟨i, hf, hi⟩ | hn
  · obtain ⟨s1, r, e, T⟩ := tried hs s i hf hi
    have t := T.thread
    rw [if_neg (by simp [ok])] at t
    cases r with
    | none => rw [(lp_none e h).1]; exact (fallback_same env s1).2.1.trans t
    | some r => rw [(lp_some e h).1]; exact t
  · obtain ⟨s1, e, o, t, _⟩ := not_tried env s hn
    rw [(lp_none e h).1]; exact (fallback_same env s1).2.1.trans t

/-- If it does not, the caller's thread goes on as the system, and the function does not tell: with the limited token or by the fallback, it can return success. -/
theorem C76_restore_fails {env : Env} (hs : Sane env) {s s' : Os} {hr : BitVec 32} {i : Nat} {e : Err} (hf : known env s = .full) (hi : env.impTok = some i) (im : Impersonates env s)
    (bad : env.restore = some e) (h : lowPriv env s = some (s', hr)) : s'.thread = some i ∧ (env.create = none → (env.limTok = none ∨ env.asUser = none) → hr = 0#32) := by
  obtain ⟨s1, r, e1, T⟩ := tried hs s i hf hi
  have t := T.thread
  rw [if_pos ⟨im, by simp [bad]⟩] at t
  have rs := T.res
  cases r with
  | none =>
    rw [(lp_none e1 h).1, (lp_none e1 h).2]
    exact ⟨(fallback_same env s1).2.1.trans t, fun hc _ => by unfold fallback; rw [hc]⟩
  | some r =>
    rw [(lp_some e1 h).1, (lp_some e1 h).2]
    refine ⟨t, fun _ hl => ?_⟩
    rcases hl with hl | hl
    · rw [hl] at rs; cases rs
    · rw [hl] at rs
      split at rs
      · cases rs; rfl
      · rename_i h1; cases h1
      · cases rs

/-- Success means exactly one new process, failure none. -/
theorem C76_once {env : Env} (hs : Sane env) {s s' : Os} {hr : BitVec 32} (h : lowPriv env s = some (s', hr)) :
    (succeeded hr = true ∧ ∃ p, s'.procs = s.procs ++ [p]) ∨ (succeeded hr = false ∧ s'.procs = s.procs) := by
  have fb : ∀ s1 : Os, s1.procs = s.procs → (succeeded (fallback env s1).2 = true ∧ ∃ p, (fallback env s1).1.procs = s.procs ++ [p]) ∨
      (succeeded (fallback env s1).2 = false ∧ (fallback env s1).1.procs = s.procs) := by
    intro s1 hp
    unfold fallback
    split
    · exact .inl ⟨rfl, _, by rw [hp]⟩
    · rename_i e he
      exact .inr ⟨ok_hr (fun h0 => hs.create0 (h0 ▸ he)), hp⟩
  rcases cases_tried env s with ⟨i, hf, hi⟩ | hn
  · obtain ⟨s1, r, e, T⟩ := tried hs s i hf hi
    have rs := T.res
    have ps := T.procs
    cases r with
    | none => rw [(lp_none e h).1, (lp_none e h).2]; exact fb s1 T.no_proc
    | some r =>
      rw [(lp_some e h).1, (lp_some e h).2]
      split at rs
      · rename_i h1 h2 h3
        cases rs
        rw [h1, h2, h3] at ps
        exact .inl ⟨by decide, _, ps⟩
      · rename_i h1 h2 h3
        split at rs
        · cases rs
        · cases rs
          rw [h1, h2, h3] at ps
          exact .inr ⟨ok_hr (fun h0 => hs.asUser0 (h0 ▸ h3)), by simpa using ps⟩
      · cases rs
  · obtain ⟨s1, e, _, _, _, _, p⟩ := not_tried env s hn
    rw [(lp_none e h).1, (lp_none e h).2]; exact fb s1 p

/-- An error of `CreateProcessAsUserW` other than the two it falls back for is passed on, and no process is made. -/
theorem C76_error {env : Env} (hs : Sane env) {s s' : Os} {hr : BitVec 32} {l : Nat} {e : Err} (hl : Reaches env s l) (he : env.asUser = some e) (h1 : e ≠ 5#32) (h2 : e ≠ 1314#32)
    (h : lowPriv env s = some (s', hr)) : hr = hrFromWin32 e ∧ s'.procs = s.procs := by
  obtain ⟨hf, ⟨i, hi⟩, hl, hd⟩ := hl
  obtain ⟨s1, r, e1, T⟩ := tried hs s i hf hi
  have rs := T.res
  have ps := T.procs
  rw [hl, hd, he] at rs ps
  dsimp only at rs
  rw [if_neg (fun h => h.elim h1 h2)] at rs
  subst rs
  rw [(lp_some e1 h).1, (lp_some e1 h).2]
  exact ⟨rfl, by simpa using ps⟩

/-- The process has the limited token if that was there and `CreateProcessAsUserW` took it. Partial: in all other cases it has the full rights of the caller (`C76_low_fails`). -/
theorem C76_low_partial {env : Env} (hs : Sane env) {s s' : Os} {hr : BitVec 32} {l : Nat} (hl : Reaches env s l) (he : env.asUser = none) (h : lowPriv env s = some (s', hr)) :
    hr = 0#32 ∧ ∃ u, s'.procs = s.procs ++ [⟨.tok l, u⟩] := by
  obtain ⟨hf, ⟨i, hi⟩, hl, hd⟩ := hl
  obtain ⟨s1, r, e1, T⟩ := tried hs s i hf hi
  have rs := T.res
  have ps := T.procs
  rw [hl, hd, he] at rs ps
  subst rs
  rw [(lp_some e1 h).1, (lp_some e1 h).2]
  exact ⟨rfl, _, ps⟩

/-- With full rights, the function makes a process with the same full rights and says success, as soon as one of the means is missing or `CreateProcessAsUserW` is not allowed. -/
theorem C76_low_fails {env : Env} (hs : Sane env) {s : Os} (hf : known env s = .full) (hc : env.create = none)
    (h : env.impTok = none ∨ env.limTok = none ∨ env.dup ≠ none ∨ env.asUser = some 5#32 ∨ env.asUser = some 1314#32) :
    ∃ s' u, lowPriv env s = some (s', 0#32) ∧ s'.procs = s.procs ++ [⟨.own, u⟩] := by
  unfold lowPriv
  cases hi : env.impTok with
  | none =>
    obtain ⟨s1, e, _, _, _, _, p⟩ := not_tried env s (.inr hi)
    rw [e]; unfold fallback; rw [hc]
    exact ⟨_, _, rfl, by rw [p]⟩
  | some i =>
    obtain ⟨s1, r, e1, T⟩ := tried hs s i hf hi
    rw [e1]
    have rs := T.res
    have hr : r = none := by
      rw [rs]
      cases hl : env.limTok with
      | none => rfl
      | some l =>
        cases hd : env.dup with
        | some e => rfl
        | none =>
          rcases h with h | h | h | h | h
          · rw [h] at hi; cases hi
          · rw [h] at hl; cases hl
          · exact absurd hd h
          · rw [h]; exact if_pos (.inl rfl)
          · rw [h]; exact if_pos (.inr rfl)
    subst hr
    unfold fallback; rw [hc]
    exact ⟨_, _, rfl, by rw [T.no_proc]⟩

/-- A process made by the fallback is made after the scope was left: the thread has its own token, if the destructor could set it. -/
theorem C76_fallback_thread {env : Env} (hs : Sane env) {s s' : Os} {hr : BitVec 32} {u : Option Nat} (h : lowPriv env s = some (s', hr)) (ok : env.restore = none)
    (hp : s'.procs = s.procs ++ [⟨.own, u⟩]) : u = s.thread := by
  have fb : ∀ s1 : Os, s1.procs = s.procs → s1.thread = s.thread → (fallback env s1).1.procs = s.procs ++ [⟨.own, u⟩] → u = s.thread := by
    intro s1 p t hp
    unfold fallback at hp
    split at hp
    · dsimp only at hp; rw [p] at hp
      have := List.append_cancel_left hp
      simp at this; rw [← this]; exact t
    · dsimp only at hp; rw [p] at hp; simp at hp
  rcases cases_tried env s with ⟨i, hf, hi⟩ | hn
  · obtain ⟨s1, r, e, T⟩ := tried hs s i hf hi
    have t := T.thread
    rw [if_neg (by simp [ok])] at t
    cases r with
    | none => rw [(lp_none e h).1] at hp; exact fb s1 T.no_proc t hp
    | some r =>
      rw [(lp_some e h).1, T.procs] at hp
      have := List.append_cancel_left hp
      split at this
      · simp at this
      · simp at this
  · obtain ⟨s1, e, o, t, _, _, p⟩ := not_tried env s hn
    rw [(lp_none e h).1] at hp; exact fb s1 p t hp

/-- The privileges of tokens other than the library's own are left alone if the thread could impersonate. Partial: see `C76_privileges_fails`. -/
theorem C76_privileges_partial {env : Env} (hs : Sane env) {s s' : Os} {hr : BitVec 32} (im : Impersonates env s) (h : lowPriv env s = some (s', hr)) (t : Nat) (ht : env.impTok ≠ some t) :
    s'.imp t = s.imp t ∧ s'.assign t = s.assign t := by
  rcases cases_tried env s with ⟨i, hf, hi⟩ | hn
  · obtain ⟨s1, r, e, T⟩ := tried hs s i hf hi
    have hit : inside env s i ≠ some t := by
      unfold inside; rw [if_pos im, ← hi]; exact ht
    have k1 : s1.imp t = s.imp t := by
      have := T.imp t; simp [hit] at this; exact this
    have k2 : s1.assign t = s.assign t := by
      have := T.assign t; simp [hit] at this; exact this
    cases r with
    | none =>
      have f := fallback_same env s1
      rw [(lp_none e h).1, f.2.2.1, f.2.2.2]; exact ⟨k1, k2⟩
    | some r => rw [(lp_some e h).1]; exact ⟨k1, k2⟩
  · obtain ⟨s1, e, o, t, i1, a1, _⟩ := not_tried env s hn
    have f := fallback_same env s1
    rw [(lp_none e h).1, f.2.2.1, f.2.2.2, i1, a1]; exact ⟨rfl, rfl⟩

/-- If it could not, the two privileges are switched on in the caller's own token, and stay on. -/
theorem C76_privileges_fails {env : Env} (hs : Sane env) {s s' : Os} {hr : BitVec 32} {i t : Nat} (hf : known env s = .full) (hi : env.impTok = some i) (ht : s.thread = some t)
    (im : ¬ Impersonates env s) (h : lowPriv env s = some (s', hr)) : s'.imp t = true ∧ s'.assign t = true ∧ s'.thread = some t := by
  obtain ⟨s1, r, e, T⟩ := tried hs s i hf hi
  have hit : inside env s i = some t := by unfold inside; rw [if_neg im, ht]
  have k1 := (T.imp t).2 (.inr hit)
  have k2 := (T.assign t).2 (.inr hit)
  have k3 := T.thread
  rw [if_neg (fun h => im h.1), ht] at k3
  cases r with
  | none =>
    have f := fallback_same env s1
    rw [(lp_none e h).1, f.2.2.1, f.2.2.2, f.2.1]; exact ⟨k1, k2, k3⟩
  | some r => rw [(lp_some e h).1]; exact ⟨k1, k2, k3⟩

/-- The elevation is asked for once: a later answer of the system changes nothing. -/
theorem C76_cached (env : Env) (s : Os) (e : Elev) (h : s.cached = some e) (b : Bool) (q : Option Elev) : lowPriv { env with openProc := b, query := q } s = lowPriv env s := by
  unfold lowPriv tryLimited elevation
  rw [h]
  rfl

/-! ## Concrete cases -/

def sys : Os := ⟨some 7, fun _ => false, fun _ => false, [], 0, [], none⟩
def good : Env := ⟨true, some .full, some 1, none, none, none, some 2, none, none, none⟩

example : Sane good := ⟨by decide, by decide, by decide, by decide, by decide⟩
example : Reaches good sys 2 := ⟨rfl, ⟨1, rfl⟩, rfl, rfl⟩
example : Impersonates good sys := ⟨rfl, .inr rfl⟩
/-- all goes well: a process with the limited token 2, made as the system (token 1); the caller has token 7 again -/
example : (lowPriv good sys).map (fun p => (p.1.thread, p.1.open_, p.1.procs, p.1.imp 7, p.1.imp 1, p.2)) = some (some 7, [], [⟨.tok 2, some 1⟩], false, true, 0#32) := rfl
/-- access denied: full rights -/
example : (lowPriv { good with asUser := some 5#32 } sys).map (fun p => (p.1.thread, p.1.open_, p.1.procs, p.2)) = some (some 7, [], [⟨.own, some 7⟩], 0#32) := by decide
/-- another error is passed on -/
example : (lowPriv { good with asUser := some 2#32 } sys).map (fun p => (p.1.thread, p.1.procs, p.2)) = some (some 7, [], 0x80070002#32) := by decide
/-- the scope cannot be left: the fallback runs as the system and the thread stays so -/
example : (lowPriv { good with limTok := none, restore := some 5#32 } sys).map (fun p => (p.1.thread, p.1.procs, p.2)) = some (some 1, [⟨.own, some 1⟩], 0#32) := by decide
/-- the scope cannot be entered: the caller's token 7 gets the privileges -/
example : (lowPriv { good with openThread := some 5#32 } sys).map (fun p => (p.1.thread, p.1.imp 7, p.2)) = some (some 7, true, 0#32) := by decide

end Verif.LowPriv
