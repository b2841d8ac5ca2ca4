import Verif.Chain.Model

/-! # Task chains (C79) -/
namespace Verif.Chain

/-! ## Specification -/

/-- a code that says "failed" -/
def isErr (hr : Nat) : Prop := hr ≠ 0 ∧ hr ≠ E_PENDING

/-- the codes of the specification: `E_PENDING`, `E_UNEXPECTED`, `E_FAIL` and `HRESULT_FROM_WIN32(ERROR_CANCELLED)` of Windows -/
theorem C79_codes : E_PENDING = 0x8000000A ∧ E_UNEXPECTED = 0x8000FFFF ∧ E_FAIL = 0x80004005 ∧ E_CANCELLED = 0x800704C7 := by
  unfold E_PENDING E_UNEXPECTED E_FAIL E_CANCELLED; decide

/-- the task has failed with the exception thrown and its code -/
def Threw (e : Exc) (r : Res) : Prop := ∃ hr, r = .err (some e) hr ∧ (isErr e.code → hr = e.code) ∧ (¬ isErr e.code → hr = E_UNEXPECTED)

/-- what a callback for a value makes of it -/
def Gave (o : Out Nat) (r : Res) : Prop :=
  match o with
  | .ret w => r = .ok w
  | .throw e => Threw e r

/-- `Then` for a source that ended as `rs`: the callback for a value; error and exception are passed on; a canceled source gives the *error* `ERROR_CANCELLED` -/
def NextSpec (f : Nat → Out Nat) (rs r : Res) : Prop :=
  match rs with
  | .ok v => Gave (f v) r
  | .err x hr => r = .err x hr
  | .canceled => r = .err none E_CANCELLED

/-- the exception an error callback gets -/
def Seen (tok : Bool) (rs : Res) (e : Exc) : Prop :=
  match rs with
  | .ok _ => False
  | .err (some x) _ => e = x
  | .err none hr => e = .ofCode hr ∨ (tok = true ∧ e = .opCanceled)
  | .canceled => e = .opCanceled

/-- `ThenError`: a value is passed on, an error goes through the callback -/
def ErrSpec (tok : Bool) (g : Exc → Out Nat) (rs r : Res) : Prop :=
  (∃ v, rs = .ok v ∧ r = .ok v) ∨ ∃ e, Seen tok rs e ∧ Gave (g e) r

/-- the end of the inner task is passed on -/
def Passed (ri r : Res) : Prop :=
  match ri with
  | .ok v => r = .ok v
  | .err x hr => ∃ hr', r = .err x hr' ∧ (isErr hr → hr' = hr) ∧ (¬ isErr hr → hr' = E_UNEXPECTED)
  | .canceled => r = .err none E_CANCELLED

def ErrTaskSpec (tok : Bool) (g : Exc → Out (Option Res)) (rs r : Res) : Prop :=
  (∃ v, rs = .ok v ∧ r = .ok v) ∨ ∃ e, Seen tok rs e ∧
    match g e with
    | .ret (some ri) => Passed ri r
    | .ret none => r = .err none E_FAIL
    | .throw x => Threw x r

/-- error codes are error codes -/
def Normal : Res → Prop
  | .err _ hr => isErr hr
  | _ => True

/-- a result that node `i` may have -/
def Good (s : St) (i : Nat) (n : Node) (r : Res) : Prop :=
  Normal r ∧ ((r = .canceled ∧ (s.cancels i = true ∨ s.tok i = true)) ∨
    match n.kind with
    | .root => True
    | .task o => Gave o r
    | .next j f => (∃ v h, s.res j = some (.ok v) ∧ n.home = some h ∧ s.dead h = true ∧ r = .err none E_CANCELLED) ∨ ∃ rs, s.res j = some rs ∧ NextSpec f rs r
    | .err j g => ∃ rs, s.res j = some rs ∧ ErrSpec (s.tok j) g rs r
    | .errTask j g => ∃ rs, s.res j = some rs ∧ ErrTaskSpec (s.tok j) g rs r)

/-- the callback may be called -/
def Ready (s : St) (i : Nat) (n : Node) : Prop :=
  match n.kind with
  | .root => False
  | .task _ => True
  | .next j _ => ∃ v, s.res j = some (.ok v)
  | .err j _ => ∃ rs e, s.res j = some rs ∧ s.eptr i = some e ∧ Seen (s.tok j) rs e
  | .errTask j _ => ∃ rs e, s.res j = some rs ∧ s.eptr i = some e ∧ Seen (s.tok j) rs e

/-- the thread is one of the chosen runner, or that runner is gone -/
def Place (s : St) (n : Node) (c : Option Nat) : Prop := ∀ r, n.home = some r → c = some r ∨ s.dead r = true

def PhInv (s : St) (i : Nat) (n : Node) : Prop :=
  match s.ph i with
  | .idle => True
  | .posted r => n.home = some r ∧ Ready s i n
  | .begun c => Ready s i n ∧ Place s n c
  | .calling c => Ready s i n ∧ Place s n c
  | .got r => Good s i n r ∧ r ≠ .canceled
  | .inner r => Good s i n (forward r)
  | .over => s.res i ≠ none
  | .lost => ∃ r, n.home = some r ∧ s.stopped r = true

/-- has the callback been called, or may it not be called any more -/
def after : Phase → Bool
  | .idle => false
  | .posted _ => false
  | .begun _ => false
  | _ => true

structure Inv (cfg : List Node) (s : St) : Prop where
  out : ∀ i, s.ph i ≠ .idle → ∃ n, cfg[i]? = some n
  ph : ∀ (i : Nat) n, cfg[i]? = some n → PhInv s i n
  res : ∀ (i : Nat) n r, cfg[i]? = some n → s.res i = some r → Good s i n r
  canc : ∀ i r, cfg[i]? = none → s.res i = some r → r = .canceled
  once : ∀ i, s.calls.countP (fun e => e.1 == i) ≤ (after (s.ph i)).toNat
  calls : ∀ e ∈ s.calls, ∃ n, cfg[e.1]? = some n ∧ Place s n e.2.1 ∧ e.2.2 = n.kind.src.bind s.res ∧ Ready s e.1 n

/-! ## The environment only grows -/

structure Ext (s t : St) : Prop where
  res : ∀ i r, s.res i = some r → t.res i = some r
  tok : ∀ i, s.tok i = true → t.tok i = true
  dead : ∀ i, s.dead i = true → t.dead i = true
  stopped : ∀ i, s.stopped i = true → t.stopped i = true
  cancels : ∀ i, s.cancels i = true → t.cancels i = true

theorem Seen.mono {a b rs e} (h : Seen a rs e) (hab : a = true → b = true) : Seen b rs e := by
  unfold Seen at *
  split
  · exact h
  · exact h
  · rcases h with h | ⟨h1, h2⟩
    · exact .inl h
    · exact .inr ⟨hab h1, h2⟩
  · exact h

theorem Good.ext {s t i n r} (h : Good s i n r) (hx : Ext s t) : Good t i n r := by
  refine ⟨h.1, ?_⟩
  rcases h.2 with ⟨h1, h2⟩ | h2
  · exact .inl ⟨h1, h2.imp (hx.cancels i) (hx.tok i)⟩
  · refine .inr ?_
    revert h2
    cases n.kind with
    | root => exact id
    | task o => exact id
    | next j f =>
      rintro (⟨v, hh, a, b, c, d⟩ | ⟨rs, a, b⟩)
      · exact .inl ⟨v, hh, hx.res _ _ a, b, hx.dead _ c, d⟩
      · exact .inr ⟨rs, hx.res _ _ a, b⟩
    | err j g =>
      rintro ⟨rs, a, b⟩
      refine ⟨rs, hx.res _ _ a, ?_⟩
      rcases b with b | ⟨e, h1, h2⟩
      · exact .inl b
      · exact .inr ⟨e, h1.mono (hx.tok j), h2⟩
    | errTask j g =>
      rintro ⟨rs, a, b⟩
      refine ⟨rs, hx.res _ _ a, ?_⟩
      rcases b with b | ⟨e, h1, h2⟩
      · exact .inl b
      · exact .inr ⟨e, h1.mono (hx.tok j), h2⟩

theorem Ready.ext {s t i n} (h : Ready s i n) (hx : Ext s t) (he : t.eptr i = s.eptr i) : Ready t i n := by
  unfold Ready at *
  cases hk : n.kind with
  | root => rw [hk] at h; exact h
  | task o => trivial
  | next j f => rw [hk] at h; obtain ⟨v, a⟩ := h; exact ⟨v, hx.res _ _ a⟩
  | err j g => rw [hk] at h; obtain ⟨rs, e, a, b, c⟩ := h; exact ⟨rs, e, hx.res _ _ a, he.trans b, c.mono (hx.tok j)⟩
  | errTask j g => rw [hk] at h; obtain ⟨rs, e, a, b, c⟩ := h; exact ⟨rs, e, hx.res _ _ a, he.trans b, c.mono (hx.tok j)⟩

theorem Place.ext {s t n c} (h : Place s n c) (hx : Ext s t) : Place t n c := fun r hr => (h r hr).imp id (hx.dead r)

theorem PhInv.ext {s t i n} (h : PhInv s i n) (hx : Ext s t) (hp : t.ph i = s.ph i) (he : t.eptr i = s.eptr i) : PhInv t i n := by
  unfold PhInv at *
  rw [hp]
  cases hph : s.ph i with
  | idle => trivial
  | posted r => rw [hph] at h; exact ⟨h.1, h.2.ext hx he⟩
  | begun c => rw [hph] at h; exact ⟨h.1.ext hx he, h.2.ext hx⟩
  | calling c => rw [hph] at h; exact ⟨h.1.ext hx he, h.2.ext hx⟩
  | got r => rw [hph] at h; exact ⟨h.1.ext hx, h.2⟩
  | inner r => rw [hph] at h; exact Good.ext h hx
  | over =>
    rw [hph] at h
    cases hr : s.res i with
    | none => exact absurd hr h
    | some r => rw [hx.res _ _ hr]; simp
  | lost => rw [hph] at h; obtain ⟨r, a, b⟩ := h; exact ⟨r, a, hx.stopped _ b⟩

theorem bind_ext {s t : St} {i n} (h : Ready s i n) (hx : Ext s t) : n.kind.src.bind t.res = n.kind.src.bind s.res := by
  unfold Ready at h
  cases hk : n.kind with
  | root => rfl
  | task o => rfl
  | next j f => rw [hk] at h; obtain ⟨v, a⟩ := h; simp [Kind.src, a, hx.res _ _ a]
  | err j g => rw [hk] at h; obtain ⟨rs, e, a, b, c⟩ := h; simp [Kind.src, a, hx.res _ _ a]
  | errTask j g => rw [hk] at h; obtain ⟨rs, e, a, b, c⟩ := h; simp [Kind.src, a, hx.res _ _ a]

/-- the general step: node `i` changes, everything else grows -/
theorem Inv.change {cfg s t} {i : Nat} {n : Node} (hi : Inv cfg s) (hn : cfg[i]? = some n) (hx : Ext s t)
    (hph : ∀ j, j ≠ i → t.ph j = s.ph j) (hep : ∀ j, j ≠ i → t.eptr j = s.eptr j) (hres : ∀ j, j ≠ i → t.res j = s.res j)
    (hc : t.calls = s.calls) (he : after (s.ph i) = true → t.eptr i = s.eptr i) (haf : after (s.ph i) = true → after (t.ph i) = true)
    (h1 : PhInv t i n) (h2 : ∀ r, t.res i = some r → Good t i n r) : Inv cfg t := by
  constructor
  · intro j hj
    by_cases hji : j = i
    · subst hji; exact ⟨n, hn⟩
    · exact hi.out j (by rw [← hph j hji]; exact hj)
  · intro j m hm
    by_cases hji : j = i
    · subst hji; rw [hn] at hm; cases hm; exact h1
    · exact (hi.ph j m hm).ext hx (hph j hji) (hep j hji)
  · intro j m r hm hr
    by_cases hji : j = i
    · subst hji; rw [hn] at hm; cases hm; exact h2 r hr
    · rw [hres j hji] at hr; exact (hi.res j m r hm hr).ext hx
  · intro j r hm hr
    by_cases hji : j = i
    · subst hji; rw [hn] at hm; cases hm
    · rw [hres j hji] at hr; exact hi.canc j r hm hr
  · intro j
    rw [hc]
    have := hi.once j
    by_cases hji : j = i
    · subst hji
      cases ha : after (s.ph j) with
      | true => rw [haf ha]; rw [ha] at this; exact this
      | false => rw [ha] at this; exact Nat.le_trans this (Nat.zero_le _)
    · rw [hph j hji]; exact this
  · intro e hm
    rw [hc] at hm
    obtain ⟨m, a, b, c, d⟩ := hi.calls e hm
    refine ⟨m, a, b.ext hx, by rw [bind_ext d hx]; exact c, d.ext hx ?_⟩
    by_cases hji : e.1 = i
    · rw [hji]; apply he
      have := hi.once e.1
      have hpos : 0 < s.calls.countP (fun x => x.1 == e.1) := List.countP_pos_iff.2 ⟨e, hm, by simp⟩
      cases ha : after (s.ph e.1) with
      | true => rw [hji] at ha; exact ha
      | false => rw [ha] at this; simp at this; exact absurd rfl (this _ _ _ hm)
    · exact hep _ hji

theorem ext_refl (s : St) : Ext s s := ⟨fun _ _ h => h, fun _ h => h, fun _ h => h, fun _ h => h, fun _ h => h⟩

theorem upd_same {α} (f : Nat → α) (i a) : upd f i a i = a := by simp [upd]
theorem upd_ne {α} (f : Nat → α) {i j} (a) (h : j ≠ i) : upd f i a j = f j := by simp [upd, h]

theorem ext_fill (s : St) (i r) : Ext s (fill s i r) := by
  unfold fill
  split
  · rename_i h
    refine ⟨fun j q hq => ?_, fun _ h => h, fun _ h => h, fun _ h => h, fun _ h => h⟩
    by_cases hj : j = i
    · subst hj; rw [h] at hq; cases hq
    · show upd s.res i (some r) j = some q
      rw [upd_ne _ _ hj]; exact hq
  · exact ext_refl s

theorem fill_res (s : St) (i r) : ∃ q, (fill s i r).res i = some q ∧ (q = r ∨ s.res i = some q) := by
  unfold fill
  cases h : s.res i with
  | none => exact ⟨r, by simp [upd], .inl rfl⟩
  | some q => exact ⟨q, by simp [h], .inr rfl⟩

theorem fill_ne (s : St) (i r) {j} (h : j ≠ i) : (fill s i r).res j = s.res j := by
  unfold fill
  split
  · show upd s.res i (some r) j = _
    rw [upd_ne _ _ h]
  · rfl

theorem fill_other (s : St) (i r) : (fill s i r).ph = s.ph ∧ (fill s i r).eptr = s.eptr ∧ (fill s i r).calls = s.calls ∧ (fill s i r).tok = s.tok ∧
    (fill s i r).dead = s.dead ∧ (fill s i r).stopped = s.stopped ∧ (fill s i r).cancels = s.cancels := by
  unfold fill; split <;> exact ⟨rfl, rfl, rfl, rfl, rfl, rfl, rfl⟩

theorem ext_setPh {s t : St} (h : Ext s t) (i p) : Ext s (setPh t i p) := ⟨h.res, h.tok, h.dead, h.stopped, h.cancels⟩

/-- storing an allowed result and being over -/
theorem Inv.filled {cfg s} {i : Nat} {n : Node} (hi : Inv cfg s) (hn : cfg[i]? = some n) {r : Res} (hg : Good s i n r) :
    Inv cfg (setPh (fill s i r) i .over) := by
  have hx := ext_setPh (ext_fill s i r) i .over
  have ho := fill_other s i r
  obtain ⟨q, hq, hqr⟩ := fill_res s i r
  refine hi.change hn hx ?_ ?_ ?_ ho.2.2.1 ?_ ?_ ?_ ?_
  · intro j hj; show upd (fill s i r).ph i .over j = _; rw [upd_ne _ _ hj, ho.1]
  · intro j _; show (fill s i r).eptr j = _; rw [ho.2.1]
  · intro j hj; exact fill_ne s i r hj
  · intro _; show (fill s i r).eptr i = _; rw [ho.2.1]
  · intro _; show after (upd (fill s i r).ph i .over i) = true; rw [upd_same]; rfl
  · unfold PhInv
    show match upd (fill s i r).ph i .over i with | .idle => _ | .posted r => _ | .begun c => _ | .calling c => _ | .got r => _ | .inner r => _ | .over => _ | .lost => _
    rw [upd_same]
    show (fill s i r).res i ≠ none
    rw [hq]; simp
  · intro q' hq'
    have : (fill s i r).res i = some q' := hq'
    rw [hq] at this; cases this
    rcases hqr with h | h
    · subst h; exact hg.ext hx
    · exact (hi.res i n q hn h).ext hx

/-- a new phase, nothing else -/
theorem Inv.phase {cfg s} {i : Nat} {n : Node} (hi : Inv cfg s) (hn : cfg[i]? = some n) (p : Phase) (haf : after (s.ph i) = true → after p = true)
    (h1 : PhInv (setPh s i p) i n) : Inv cfg (setPh s i p) := by
  have hx := ext_setPh (ext_refl s) i p
  refine hi.change hn hx ?_ (fun _ _ => rfl) (fun _ _ => rfl) rfl (fun _ => rfl) ?_ h1 ?_
  · intro j hj; exact upd_ne _ _ hj
  · intro h; show after (upd s.ph i p i) = true; rw [upd_same]; exact haf h
  · intro r hr; exact (hi.res i n r hn hr).ext hx

theorem phInv_setPh {s : St} {i : Nat} {n : Node} {p : Phase} : PhInv (setPh s i p) i n =
    (match p with
    | .idle => True
    | .posted r => n.home = some r ∧ Ready s i n
    | .begun c => Ready s i n ∧ Place s n c
    | .calling c => Ready s i n ∧ Place s n c
    | .got r => Good s i n r ∧ r ≠ .canceled
    | .inner r => Good s i n (forward r)
    | .over => s.res i ≠ none
    | .lost => ∃ r, n.home = some r ∧ s.stopped r = true) := by
  unfold PhInv
  have : (setPh s i p).ph i = p := upd_same _ _ _
  rw [this]
  cases p <;> rfl

theorem Inv.post {cfg s} {i : Nat} {n : Node} (hi : Inv cfg s) (hn : cfg[i]? = some n) {r : Nat} (hr : n.home = some r) (hrd : Ready s i n)
    (haf : after (s.ph i) = false) : Inv cfg (post s i r) := by
  unfold Chain.post
  split
  · rename_i h
    exact hi.phase hn _ (fun _ => rfl) (by rw [phInv_setPh]; exact ⟨r, hr, h⟩)
  · exact hi.phase hn _ (fun h => by rw [haf] at h; cases h) (by rw [phInv_setPh]; exact ⟨hr, hrd⟩)

theorem isErr_norm (hr : Nat) : isErr (norm hr) := by
  unfold norm isErr
  split
  · exact ⟨by unfold E_UNEXPECTED; decide, by unfold E_UNEXPECTED E_PENDING; decide⟩
  · rename_i h
    exact ⟨fun h' => h (.inr h'), fun h' => h (.inl h')⟩

theorem norm_of {hr : Nat} (h : isErr hr) : norm hr = hr := by
  unfold norm
  rw [if_neg]
  rintro (h' | h')
  · exact h.2 h'
  · exact h.1 h'

theorem norm_not {hr : Nat} (h : ¬ isErr hr) : norm hr = E_UNEXPECTED := by
  unfold norm
  rw [if_pos]
  refine Classical.byContradiction fun h' => h ⟨fun a => h' (.inr a), fun a => h' (.inl a)⟩

theorem isErr_cancelled : isErr E_CANCELLED := ⟨by unfold E_CANCELLED; decide, by unfold E_CANCELLED E_PENDING; decide⟩
theorem isErr_fail : isErr E_FAIL := ⟨by unfold E_FAIL; decide, by unfold E_FAIL E_PENDING; decide⟩

theorem threw_thrown (e : Exc) : Threw e (thrown e) := ⟨norm e.code, rfl, fun h => norm_of h, fun h => norm_not h⟩

theorem normal_thrown (e : Exc) : Normal (thrown e) := isErr_norm _

theorem normal_forward (r : Res) : Normal (forward r) := by
  cases r with
  | ok v => trivial
  | err x hr => exact isErr_norm _
  | canceled => exact isErr_norm _

theorem forward_next {f r} (h : ∀ v, r ≠ .ok v) (hn : Normal r) : NextSpec f r (forward r) := by
  cases r with
  | ok v => exact absurd rfl (h v)
  | err x hr => show Res.err x (norm hr) = .err x hr; rw [norm_of hn]
  | canceled => show Res.err none (norm E_CANCELLED) = _; rw [norm_of isErr_cancelled]

theorem forward_passed (r : Res) : Passed r (forward r) := by
  cases r with
  | ok v => rfl
  | err x hr => exact ⟨norm hr, rfl, fun h => norm_of h, fun h => norm_not h⟩
  | canceled => show Res.err none (norm E_CANCELLED) = _; rw [norm_of isErr_cancelled]

theorem excOf_seen (tok) {r : Res} (h : ∀ v, r ≠ .ok v) : Seen tok r (excOf tok r) := by
  cases r with
  | ok v => exact absurd rfl (h v)
  | err x hr =>
    cases x with
    | some x => rfl
    | none =>
      show excOf tok (.err none hr) = _ ∨ _
      unfold excOf
      cases tok with
      | true => exact .inr ⟨rfl, rfl⟩
      | false => exact .inl rfl
  | canceled => rfl

theorem normal_outcome (k e rs) (hb : (outcome k e rs).2 = false) : Normal (outcome k e rs).1 ∧ (outcome k e rs).1 ≠ .canceled := by
  unfold outcome at *
  cases k with
  | root => exact ⟨isErr_fail, by simp⟩
  | task o => cases o <;> exact ⟨by first | trivial | exact normal_thrown _, by simp [thrown]⟩
  | next j f =>
    dsimp only at *
    split
    · split <;> exact ⟨by first | trivial | exact normal_thrown _, by simp [thrown]⟩
    · exact ⟨isErr_fail, by simp⟩
  | err j g =>
    dsimp only at *
    split
    · split <;> exact ⟨by first | trivial | exact normal_thrown _, by simp [thrown]⟩
    · exact ⟨isErr_fail, by simp⟩
  | errTask j g =>
    dsimp only at *
    split
    · split
      · rename_i h; simp [h] at hb
      · exact ⟨isErr_norm _, by simp⟩
      · exact ⟨normal_thrown _, by simp [thrown]⟩
    · exact ⟨isErr_fail, by simp⟩

/-- the end of a callback that gives a value or throws -/
theorem outcome_good {s : St} {i : Nat} {n : Node} (hr : Ready s i n) (hb : (outcome n.kind (s.eptr i) (n.kind.src.bind s.res)).2 = false) :
    Good s i n (outcome n.kind (s.eptr i) (n.kind.src.bind s.res)).1 := by
  refine ⟨(normal_outcome _ _ _ hb).1, .inr ?_⟩
  unfold Ready at hr
  cases hk : n.kind with
  | root => rw [hk] at hr; exact hr.elim
  | task o => cases o with
    | ret v => rfl
    | throw e => exact threw_thrown e
  | next j f =>
    rw [hk] at hr
    obtain ⟨v, hv⟩ := hr
    refine .inr ⟨_, hv, ?_⟩
    simp only [NextSpec, outcome, Kind.src, Option.bind_some, hv, Gave]
    cases f v with
    | ret w => rfl
    | throw e => exact threw_thrown e
  | err j g =>
    rw [hk] at hr
    obtain ⟨rs, e, h1, h2, h3⟩ := hr
    refine ⟨rs, h1, .inr ⟨e, h3, ?_⟩⟩
    simp only [outcome, h2, Gave]
    cases g e with
    | ret w => rfl
    | throw e => exact threw_thrown e
  | errTask j g =>
    rw [hk] at hr hb
    obtain ⟨rs, e, h1, h2, h3⟩ := hr
    refine ⟨rs, h1, .inr ⟨e, h3, ?_⟩⟩
    simp only [outcome, h2] at hb ⊢
    cases hg : g e with
    | ret w =>
      cases w with
      | none => show Res.err none (norm E_FAIL) = _; rw [norm_of isErr_fail]
      | some w => rw [hg] at hb; cases hb
    | throw e => exact threw_thrown e

/-- the end of a callback that gives a task -/
theorem outcome_inner {s : St} {i : Nat} {n : Node} (hr : Ready s i n) (hb : (outcome n.kind (s.eptr i) (n.kind.src.bind s.res)).2 = true) :
    Good s i n (forward (outcome n.kind (s.eptr i) (n.kind.src.bind s.res)).1) := by
  refine ⟨normal_forward _, .inr ?_⟩
  unfold Ready at hr
  cases hk : n.kind with
  | root => rw [hk] at hr; exact hr.elim
  | task o => rw [hk] at hb; cases o <;> cases hb
  | next j f =>
    rw [hk] at hr hb
    obtain ⟨v, hv⟩ := hr
    simp only [outcome, Kind.src, Option.bind_some, hv] at hb
    split at hb <;> cases hb
  | err j g =>
    rw [hk] at hr hb
    obtain ⟨rs, e, h1, h2, h3⟩ := hr
    simp only [outcome, h2] at hb
    split at hb <;> cases hb
  | errTask j g =>
    rw [hk] at hr hb
    obtain ⟨rs, e, h1, h2, h3⟩ := hr
    refine ⟨rs, h1, .inr ⟨e, h3, ?_⟩⟩
    simp only [outcome, h2] at hb ⊢
    cases hg : g e with
    | ret w =>
      cases w with
      | none => rw [hg] at hb; cases hb
      | some w => exact forward_passed w
    | throw e => rw [hg] at hb; cases hb

theorem good_canceled {s : St} {i : Nat} {n : Node} (h : s.cancels i = true ∨ s.tok i = true) : Good s i n .canceled := ⟨trivial, .inl ⟨rfl, h⟩⟩

theorem isCanceled_iff {cfg s} (hi : Inv cfg s) {i : Nat} {n : Node} (hn : cfg[i]? = some n) (h : isCanceled s i = true) : Good s i n .canceled := by
  unfold isCanceled at h
  split at h
  · cases h
  · rename_i hr; exact hi.res i n _ hn hr
  · exact good_canceled (.inr h)

theorem Inv.resolved {cfg s} {i : Nat} {n : Node} (hi : Inv cfg s) (hn : cfg[i]? = some n) {v : Nat} (hg : Good s i n (.ok v)) :
    Inv cfg (setPh (resolve s i v) i .over) := by
  unfold resolve
  split
  · rename_i h; exact hi.filled hn (isCanceled_iff hi hn h)
  · exact hi.filled hn hg

theorem Inv.stored {cfg s} {i : Nat} {n : Node} (hi : Inv cfg s) (hn : cfg[i]? = some n) {r : Res} (hg : Good s i n r) :
    Inv cfg (setPh (store s i r) i .over) := by
  cases r with
  | ok v => exact hi.resolved hn hg
  | err x hr => exact hi.filled hn hg
  | canceled => exact hi.filled hn hg

theorem live_some {s : St} {h : Option Nat} {r : Nat} (hl : live s h = some r) : h = some r ∧ s.dead r = false := by
  unfold live at hl
  split at hl
  · split at hl
    · cases hl
    · cases hl; rename_i hd; exact ⟨rfl, by simpa using hd⟩
  · cases hl

theorem live_none {s : St} {h : Option Nat} (hl : live s h = none) : ∀ r, h = some r → s.dead r = true := by
  intro r hr
  subst hr
  unfold live at hl
  simp only at hl
  split at hl
  · assumption
  · cases hl

theorem place_live {s : St} {n : Node} {c : Option Nat} (h : n.home = none ∨ live s n.home = c) : Place s n c := by
  intro r hr
  rcases h with h | h
  · rw [h] at hr; cases hr
  · cases hl : live s n.home with
    | none => exact .inr (live_none hl r hr)
    | some x =>
      have := (live_some hl).1
      rw [hr] at this; cases this
      exact .inl (by rw [← h, hl])

theorem Inv.onErr {cfg s} {i j : Nat} {n : Node} {r : Res} {c : Option Nat} (hi : Inv cfg s) (hn : cfg[i]? = some n) (hp : s.ph i = .idle) (hr : s.res j = some r)
    (hready : ∀ t : St, t.res j = some r → (∀ v, r ≠ .ok v) → (∃ e, t.eptr i = some e ∧ Seen (t.tok j) r e) → Ready t i n)
    (hok : ∀ v, r = .ok v → Good s i n (.ok v)) : Inv cfg (onErr s i j n.home c r) := by
  have haf : after (s.ph i) = false := by rw [hp]; rfl
  have main : (∀ v, r ≠ .ok v) → ∀ (p : Phase), (∀ t : St, Ready t i n → t.dead = s.dead → t.stopped = s.stopped → PhInv (setPh t i p) i n) →
      Inv cfg (setPh { s with eptr := upd s.eptr i (some (excOf (s.tok j) r)) } i p) := by
    intro hne p hpp
    have hx : Ext s (setPh { s with eptr := upd s.eptr i (some (excOf (s.tok j) r)) } i p) :=
      ⟨fun _ _ h => h, fun _ h => h, fun _ h => h, fun _ h => h, fun _ h => h⟩
    refine hi.change hn hx ?_ ?_ (fun _ _ => rfl) rfl ?_ ?_ ?_ ?_
    · intro k hk; exact upd_ne _ _ hk
    · intro k hk; exact upd_ne _ _ hk
    · intro h; rw [haf] at h; cases h
    · intro h; rw [haf] at h; cases h
    · exact hpp _ (hready _ hr hne ⟨_, upd_same _ _ _, excOf_seen _ hne⟩) rfl rfl
    · intro q hq; exact (hi.res i n q hn hq).ext hx
  have rest : (∀ v, r ≠ .ok v) → Inv cfg (match live s n.home with
    | none => setPh { s with eptr := upd s.eptr i (some (excOf (s.tok j) r)) } i (.begun c)
    | some h =>
      if some h = c then setPh { s with eptr := upd s.eptr i (some (excOf (s.tok j) r)) } i (.begun c)
      else Chain.post { s with eptr := upd s.eptr i (some (excOf (s.tok j) r)) } i h) := by
    intro hne
    cases hl : live s n.home with
    | none =>
      refine main hne _ (fun t ht hd _ => ?_)
      rw [phInv_setPh]
      exact ⟨ht, fun x hx => .inr (by rw [hd]; exact live_none hl x hx)⟩
    | some h =>
      have hls := live_some hl
      dsimp only
      split
      · rename_i hc
        refine main hne _ (fun t ht hd _ => ?_)
        rw [phInv_setPh]
        refine ⟨ht, fun x hx => .inl ?_⟩
        rw [hls.1] at hx; cases hx
        exact hc.symm
      · unfold Chain.post
        split
        · rename_i hst
          refine main hne _ (fun t ht _ hs => ?_)
          rw [phInv_setPh]
          exact ⟨h, hls.1, by rw [hs]; exact hst⟩
        · refine main hne _ (fun t ht _ _ => ?_)
          rw [phInv_setPh]
          exact ⟨hls.1, ht⟩
  cases r with
  | ok v => exact hi.resolved hn (hok v rfl)
  | err x hr => exact rest (by simp)
  | canceled => exact rest (by simp)

theorem inv_init (cfg) : Inv cfg {} := by
  constructor
  · intro i h; exact absurd rfl h
  · intro i n _; trivial
  · intro i n r _ h; cases h
  · intro i r _ h; cases h
  · intro i; simp
  · intro e he; cases he

theorem inv_step {cfg s t} (hi : Inv cfg s) (h : Step cfg s t) : Inv cfg t := by
  cases h with
  | @root i n r hn hk hp =>
    refine hi.filled hn ⟨?_, .inr (by rw [hk]; trivial)⟩
    cases r with
    | ok v => trivial
    | err x hr => exact isErr_norm hr
    | canceled => trivial
  | createNo hn hk hp ht => exact hi.filled hn (good_canceled (.inr ht))
  | create hn hk hp ht hh => exact hi.post hn hh (by unfold Ready; rw [hk]; trivial) (by rw [hp]; rfl)
  | @next i n j f r c hn hk hp hr =>
    cases r with
    | ok v =>
      have hready : Ready s i n := by unfold Ready; rw [hk]; exact ⟨v, hr⟩
      show Inv cfg (if n.home = none ∨ live s n.home = c then _ else _)
      split
      · rename_i hc
        exact hi.phase hn _ (fun h => by rw [hp] at h; cases h) (by rw [phInv_setPh]; exact ⟨hready, place_live hc⟩)
      · cases hl : live s n.home with
        | none =>
          rename_i hc
          refine hi.filled hn ⟨isErr_norm _, .inr ?_⟩
          rw [hk]
          cases hh : n.home with
          | none => exact absurd (.inl hh) hc
          | some h => exact .inl ⟨v, h, hr, rfl, live_none hl h hh, by rw [norm_of isErr_cancelled]⟩
        | some h => exact hi.post hn (live_some hl).1 hready (by rw [hp]; rfl)
    | err x hrr =>
      refine hi.filled hn ⟨normal_forward _, .inr ?_⟩
      rw [hk]
      refine .inr ⟨_, hr, forward_next (by simp) ?_⟩
      cases hj : cfg[j]? with
      | none => have := hi.canc j _ hj hr; cases this
      | some m => exact (hi.res j m _ hj hr).1
    | canceled =>
      refine hi.filled hn ⟨normal_forward _, .inr ?_⟩
      rw [hk]
      exact .inr ⟨_, hr, forward_next (by simp) trivial⟩
  | @err i n j g r c hn hk hp hr =>
    refine hi.onErr hn hp hr ?_ ?_
    · intro t h1 h2 ⟨e, h3, h4⟩
      unfold Ready; rw [hk]; exact ⟨r, e, h1, h3, h4⟩
    · intro v hv
      refine ⟨trivial, .inr ?_⟩
      rw [hk]
      exact ⟨r, hr, .inl ⟨v, hv, rfl⟩⟩
  | @errTask i n j g r c hn hk hp hr =>
    refine hi.onErr hn hp hr ?_ ?_
    · intro t h1 h2 ⟨e, h3, h4⟩
      unfold Ready; rw [hk]; exact ⟨r, e, h1, h3, h4⟩
    · intro v hv
      refine ⟨trivial, .inr ?_⟩
      rw [hk]
      exact ⟨r, hr, .inl ⟨v, hv, rfl⟩⟩
  | @exec i r hp =>
    obtain ⟨n, hn⟩ := hi.out i (by rw [hp]; simp)
    have := hi.ph i n hn
    unfold PhInv at this
    rw [hp] at this
    refine hi.phase hn _ (fun h => by rw [hp] at h; cases h) ?_
    rw [phInv_setPh]
    refine ⟨this.2, fun x hx => ?_⟩
    rw [this.1] at hx; exact .inl hx
  | @drop i r hp hs =>
    obtain ⟨n, hn⟩ := hi.out i (by rw [hp]; simp)
    have := hi.ph i n hn
    unfold PhInv at this
    rw [hp] at this
    exact hi.phase hn _ (fun _ => rfl) (by rw [phInv_setPh]; exact ⟨r, this.1, hs⟩)
  | @skip i c hp hc =>
    obtain ⟨n, hn⟩ := hi.out i (by rw [hp]; simp)
    exact hi.filled hn (isCanceled_iff hi hn hc)
  | @call i n c hn hp hc =>
    have hph := hi.ph i n hn
    unfold PhInv at hph
    rw [hp] at hph
    have h1 := hi.phase hn (.calling c) (fun _ => rfl) (by rw [phInv_setPh]; exact hph)
    refine ⟨h1.out, h1.ph, h1.res, h1.canc, ?_, ?_⟩
    · intro j
      show ((i, c, n.kind.src.bind s.res) :: s.calls).countP (fun e => e.1 == j) ≤ (after (upd s.ph i (.calling c) j)).toNat
      have ho := hi.once j
      by_cases hj : j = i
      · subst hj
        rw [hp] at ho
        rw [upd_same]
        simp [after] at ho ⊢
        simpa using ho
      · rw [upd_ne _ _ hj]
        rw [List.countP_cons_of_neg (by simpa using fun h => hj h.symm)]
        exact ho
    · intro e he
      rcases List.mem_cons.1 he with he | he
      · subst he; exact ⟨n, hn, hph.2, rfl, hph.1⟩
      · exact hi.calls e he
  | @ret i n c hn hp hb =>
    have hph := hi.ph i n hn
    unfold PhInv at hph
    rw [hp] at hph
    exact hi.phase hn _ (fun _ => rfl) (by rw [phInv_setPh]; exact ⟨outcome_good hph.1 hb, (normal_outcome _ _ _ hb).2⟩)
  | @retTask i n c hn hp hb =>
    have hph := hi.ph i n hn
    unfold PhInv at hph
    rw [hp] at hph
    split
    · rename_i hc; exact hi.filled hn (isCanceled_iff hi hn hc)
    · exact hi.phase hn _ (fun _ => rfl) (by rw [phInv_setPh]; exact outcome_inner hph.1 hb)
  | @store i r hp =>
    obtain ⟨n, hn⟩ := hi.out i (by rw [hp]; simp)
    have hph := hi.ph i n hn
    unfold PhInv at hph
    rw [hp] at hph
    exact hi.stored hn hph.1
  | @bridge i r hp =>
    obtain ⟨n, hn⟩ := hi.out i (by rw [hp]; simp)
    have hph := hi.ph i n hn
    unfold PhInv at hph
    rw [hp] at hph
    exact hi.stored hn hph
  | cancel i =>
    have ho := fill_other s i .canceled
    have hf := ext_fill s i .canceled
    have hx : Ext s { fill s i .canceled with cancels := upd s.cancels i true } := by
      refine ⟨hf.res, hf.tok, hf.dead, hf.stopped, fun j hj => ?_⟩
      show upd s.cancels i true j = true
      unfold upd; split
      · rfl
      · exact hj
    have hci : upd s.cancels i true i = true := upd_same _ _ _
    obtain ⟨q, hq, hqr⟩ := fill_res s i .canceled
    cases hn : cfg[i]? with
    | some n =>
      refine hi.change hn hx (fun j _ => by rw [ho.1]) (fun j _ => by rw [ho.2.1]) (fun j hj => fill_ne s i _ hj) ho.2.2.1 (fun _ => by rw [ho.2.1]) (fun h => by rw [ho.1]; exact h) ?_ ?_
      · exact (hi.ph i n hn).ext hx (by rw [ho.1]) (by rw [ho.2.1])
      · intro r hr
        have : (fill s i .canceled).res i = some r := hr
        rw [hq] at this; cases this
        rcases hqr with h | h
        · subst h; exact good_canceled (.inl hci)
        · exact (hi.res i n q hn h).ext hx
    | none =>
      have hne : ∀ (j : Nat) m, cfg[j]? = some m → j ≠ i := by
        intro j m hj h
        subst h; rw [hn] at hj; cases hj
      constructor
      · intro j hj; exact hi.out j (by rw [← ho.1]; exact hj)
      · intro j m hm; exact (hi.ph j m hm).ext hx (by rw [ho.1]) (by rw [ho.2.1])
      · intro j m r hm hr
        have : (fill s i .canceled).res j = some r := hr
        rw [fill_ne s i _ (hne j m hm)] at this
        exact (hi.res j m r hm this).ext hx
      · intro j r hm hr
        have hr' : (fill s i .canceled).res j = some r := hr
        by_cases hj : j = i
        · subst hj
          rw [hq] at hr'; cases hr'
          rcases hqr with h | h
          · exact h
          · exact hi.canc j q hm h
        · rw [fill_ne s i _ hj] at hr'; exact hi.canc j r hm hr'
      · intro j
        show (fill s i .canceled).calls.countP _ ≤ (after ((fill s i .canceled).ph j)).toNat
        rw [ho.2.2.1, ho.1]; exact hi.once j
      · intro e he
        have he' : e ∈ (fill s i .canceled).calls := he
        rw [ho.2.2.1] at he'
        obtain ⟨m, a, b, c, d⟩ := hi.calls e he'
        exact ⟨m, a, b.ext hx, by rw [bind_ext d hx]; exact c, d.ext hx (by rw [ho.2.1])⟩
  | token i =>
    have hx : Ext s { s with tok := upd s.tok i true } := by
      refine ⟨fun _ _ h => h, fun j hj => ?_, fun _ h => h, fun _ h => h, fun _ h => h⟩
      show upd s.tok i true j = true
      unfold upd; split
      · rfl
      · exact hj
    refine ⟨hi.out, fun j m hm => (hi.ph j m hm).ext hx rfl rfl, fun j m r hm hr => (hi.res j m r hm hr).ext hx, hi.canc, hi.once, fun e he => ?_⟩
    obtain ⟨m, a, b, c, d⟩ := hi.calls e he
    exact ⟨m, a, b.ext hx, c, d.ext hx rfl⟩
  | stop i =>
    have hx : Ext s { s with stopped := upd s.stopped i true } := by
      refine ⟨fun _ _ h => h, fun _ h => h, fun _ h => h, fun j hj => ?_, fun _ h => h⟩
      show upd s.stopped i true j = true
      unfold upd; split
      · rfl
      · exact hj
    refine ⟨hi.out, fun j m hm => (hi.ph j m hm).ext hx rfl rfl, fun j m r hm hr => (hi.res j m r hm hr).ext hx, hi.canc, hi.once, fun e he => ?_⟩
    obtain ⟨m, a, b, c, d⟩ := hi.calls e he
    exact ⟨m, a, b.ext hx, c, d.ext hx rfl⟩
  | die i =>
    have hx : Ext s { s with dead := upd s.dead i true } := by
      refine ⟨fun _ _ h => h, fun _ h => h, fun j hj => ?_, fun _ h => h, fun _ h => h⟩
      show upd s.dead i true j = true
      unfold upd; split
      · rfl
      · exact hj
    refine ⟨hi.out, fun j m hm => (hi.ph j m hm).ext hx rfl rfl, fun j m r hm hr => (hi.res j m r hm hr).ext hx, hi.canc, hi.once, fun e he => ?_⟩
    obtain ⟨m, a, b, c, d⟩ := hi.calls e he
    exact ⟨m, a, b.ext hx, c, d.ext hx rfl⟩

theorem inv_reach {cfg s} (h : Reach cfg s) : Inv cfg s := by
  induction h with
  | init => exact inv_init cfg
  | step _ hs ih => exact inv_step ih hs

theorem steps_reach {cfg s t} (h : Reach cfg s) (hs : Steps cfg s t) : Reach cfg t := by
  induction hs with
  | refl => exact h
  | step _ hst ih => exact .step ih hst

/-! ## Theorems -/

/-- C79: the result of a task made by `Then` is the callback's result for the value of its source, or the error of its source; or somebody canceled it; or the chosen runner was gone. -/
theorem C79_then {cfg s} (h : Reach cfg s) {i j : Nat} {f home} (hn : cfg[i]? = some ⟨.next j f, home⟩) {r} (hr : s.res i = some r) :
    (r = .canceled ∧ (s.cancels i = true ∨ s.tok i = true)) ∨
    (∃ v q, s.res j = some (.ok v) ∧ home = some q ∧ s.dead q = true ∧ r = .err none E_CANCELLED) ∨
    ∃ rs, s.res j = some rs ∧ NextSpec f rs r :=
  ((inv_reach h).res i _ r hn hr).2

/-- C79: the result of a task made by `ThenError` is the value of its source, or the callback's result for the exception of its source; or somebody canceled it. -/
theorem C79_error {cfg s} (h : Reach cfg s) {i j : Nat} {g home} (hn : cfg[i]? = some ⟨.err j g, home⟩) {r} (hr : s.res i = some r) :
    (r = .canceled ∧ (s.cancels i = true ∨ s.tok i = true)) ∨ ∃ rs, s.res j = some rs ∧ ErrSpec (s.tok j) g rs r :=
  ((inv_reach h).res i _ r hn hr).2

/-- C79: the same when the callback gives a task: the end of that task is passed on. -/
theorem C79_errorTask {cfg s} (h : Reach cfg s) {i j : Nat} {g home} (hn : cfg[i]? = some ⟨.errTask j g, home⟩) {r} (hr : s.res i = some r) :
    (r = .canceled ∧ (s.cancels i = true ∨ s.tok i = true)) ∨ ∃ rs, s.res j = some rs ∧ ErrTaskSpec (s.tok j) g rs r :=
  ((inv_reach h).res i _ r hn hr).2

/-- C79: a task created on a runner has the result of its callback, unless somebody canceled it. -/
theorem C79_task {cfg s} (h : Reach cfg s) {i : Nat} {o home} (hn : cfg[i]? = some ⟨.task o, home⟩) {r} (hr : s.res i = some r) :
    (r = .canceled ∧ (s.cancels i = true ∨ s.tok i = true)) ∨ Gave o r :=
  ((inv_reach h).res i _ r hn hr).2

/-- C79: `ThenErrorIf` calls its callback for exceptions that match only; another exception goes on as it is. -/
theorem C79_errorIf {cfg s} (h : Reach cfg s) {i j : Nat} {p g home} (hn : cfg[i]? = some ⟨.err j (filter p g), home⟩) {r x hr'} (hr : s.res i = some r)
    (hnc : r ≠ .canceled) (hj : s.res j = some (.err (some x) hr')) : (p x = true → Gave (g x) r) ∧ (p x = false → Threw x r) := by
  rcases C79_error h hn hr with ⟨h1, _⟩ | ⟨rs, h1, h2⟩
  · exact absurd h1 hnc
  · rw [hj] at h1; cases h1
    rcases h2 with ⟨v, h2, _⟩ | ⟨e, h2, h3⟩
    · cases h2
    · have : e = x := h2
      subst this
      unfold filter at h3
      constructor
      · intro hp; rw [if_pos hp] at h3; exact h3
      · intro hp; rw [if_neg (by rw [hp]; simp)] at h3; exact h3

/-- C79: every callback is called at most once, and only for its case: that of `Then` with the value of the completed source, that of `ThenError` when the source failed or was canceled. -/
theorem C79_once {cfg s} (h : Reach cfg s) : (∀ i, s.calls.countP (fun e => e.1 == i) ≤ 1) ∧
    ∀ e ∈ s.calls, ∃ n, cfg[e.1]? = some n ∧
      match n.kind with
      | .root => False
      | .task _ => True
      | .next j _ => ∃ v, e.2.2 = some (.ok v) ∧ s.res j = some (.ok v)
      | .err j _ => ∃ rs, e.2.2 = some rs ∧ s.res j = some rs ∧ ∀ v, rs ≠ .ok v
      | .errTask j _ => ∃ rs, e.2.2 = some rs ∧ s.res j = some rs ∧ ∀ v, rs ≠ .ok v := by
  have hi := inv_reach h
  refine ⟨fun i => Nat.le_trans (hi.once i) (by cases after (s.ph i) <;> simp), fun e he => ?_⟩
  obtain ⟨n, h1, _, h2, h3⟩ := hi.calls e he
  refine ⟨n, h1, ?_⟩
  unfold Ready at h3
  have hs : ∀ {rs : Res} {t e}, Seen t rs e → ∀ v, rs ≠ .ok v := by
    intro rs t e hse v hv; subst hv; exact hse
  cases hk : n.kind with
  | root => rw [hk] at h3; exact h3
  | task o => trivial
  | next j f => rw [hk] at h2 h3; obtain ⟨v, hv⟩ := h3; exact ⟨v, by rw [h2]; exact hv, hv⟩
  | err j g => rw [hk] at h2 h3; obtain ⟨rs, x, a, _, c⟩ := h3; exact ⟨rs, by rw [h2]; exact a, a, hs c⟩
  | errTask j g => rw [hk] at h2 h3; obtain ⟨rs, x, a, _, c⟩ := h3; exact ⟨rs, by rw [h2]; exact a, a, hs c⟩

/-- C79 (partial: the runner must be there): a callback is called on a thread of the runner chosen for it. -/
theorem C79_place_partial {cfg s} (h : Reach cfg s) {e n} {r : Nat} (he : e ∈ s.calls) (hn : cfg[e.1]? = some n) (hr : n.home = some r) (hd : s.dead r = false) :
    e.2.1 = some r := by
  obtain ⟨m, h1, h2, _⟩ := (inv_reach h).calls e he
  rw [hn] at h1; cases h1
  rcases h2 r hr with h2 | h2
  · exact h2
  · rw [hd] at h2; cases h2

/-- how far a node is from its end -/
def rank : Phase → Nat
  | .idle => 6
  | .posted _ => 5
  | .begun _ => 4
  | .calling _ => 3
  | .got _ => 2
  | .inner _ => 2
  | .over => 0
  | .lost => 0

/-- the source of a node is complete -/
def srcDone (s : St) (n : Node) : Prop :=
  match n.kind with
  | .root => False
  | .task _ => ∃ r, n.home = some r
  | k => ∀ j, k.src = some j → s.res j ≠ none

theorem rank_setPh (s : St) (i p) : rank ((setPh s i p).ph i) = rank p := by
  show rank (upd s.ph i p i) = rank p
  rw [upd_same]

/-- C79 (partial: no runner may have stopped): when its source is complete, a task has a result, or it can make a step towards it (after at most six of them it has). -/
theorem C79_completes_partial {cfg s} (h : Reach cfg s) (hs : ∀ r, s.stopped r = false) {i : Nat} {n} (hn : cfg[i]? = some n) (hd : srcDone s n) :
    s.res i ≠ none ∨ ∃ t, Step cfg s t ∧ rank (t.ph i) < rank (s.ph i) := by
  have hi := inv_reach h
  have hph := hi.ph i n hn
  unfold PhInv at hph
  have hpost : ∀ (u : St) r, u.stopped = s.stopped → rank ((post u i r).ph i) = 5 := by
    intro u r hu
    unfold post
    rw [hu, if_neg (by rw [hs r]; simp), rank_setPh]; rfl
  cases hp : s.ph i with
  | over => rw [hp] at hph; exact .inl hph
  | lost => rw [hp] at hph; obtain ⟨r, _, h2⟩ := hph; rw [hs r] at h2; cases h2
  | posted r => exact .inr ⟨_, .exec hp, by rw [rank_setPh]; simp [rank]⟩
  | begun c =>
    cases hc : isCanceled s i with
    | true => exact .inr ⟨_, .skip hp hc, by rw [rank_setPh]; simp [rank]⟩
    | false => exact .inr ⟨_, .call hn hp hc, by show rank ((setPh s i (.calling c)).ph i) < _; rw [rank_setPh]; simp [rank]⟩
  | calling c =>
    cases hb : (outcome n.kind (s.eptr i) (n.kind.src.bind s.res)).2 with
    | false => exact .inr ⟨_, .ret hn hp hb, by rw [rank_setPh]; simp [rank]⟩
    | true => exact .inr ⟨_, .retTask hn hp hb, by split <;> rw [rank_setPh] <;> simp [rank]⟩
  | got r => exact .inr ⟨_, .store hp, by rw [rank_setPh]; simp [rank]⟩
  | inner r => exact .inr ⟨_, .bridge hp, by rw [rank_setPh]; simp [rank]⟩
  | idle =>
    refine .inr ?_
    unfold srcDone at hd
    have herr : ∀ j r, rank ((onErr s i j n.home none r).ph i) < 6 := by
      intro j r
      have aux : rank ((match live s n.home with
        | none => setPh { s with eptr := upd s.eptr i (some (excOf (s.tok j) r)) } i (.begun none)
        | some h =>
          if some h = none then setPh { s with eptr := upd s.eptr i (some (excOf (s.tok j) r)) } i (.begun none)
          else post { s with eptr := upd s.eptr i (some (excOf (s.tok j) r)) } i h).ph i) < 6 := by
        split
        · rw [rank_setPh]; simp [rank]
        · split
          · rw [rank_setPh]; simp [rank]
          · exact Nat.lt_of_le_of_lt (Nat.le_of_eq (hpost _ _ rfl)) (by decide)
      cases r with
      | ok v => show rank ((setPh _ i .over).ph i) < 6; rw [rank_setPh]; simp [rank]
      | err x hr => exact aux
      | canceled => exact aux
    cases hk : n.kind with
    | root => rw [hk] at hd; exact hd.elim
    | task o =>
      rw [hk] at hd
      obtain ⟨r, hr⟩ := hd
      cases ht : s.tok i with
      | true => exact ⟨_, .createNo hn hk hp ht, by rw [rank_setPh]; simp [rank]⟩
      | false => exact ⟨_, .create hn hk hp ht hr, by rw [hpost s r rfl]; decide⟩
    | next j f =>
      rw [hk] at hd
      have := hd j rfl
      cases hr : s.res j with
      | none => exact absurd hr this
      | some r =>
        refine ⟨_, .next none hn hk hp hr, ?_⟩
        cases r with
        | ok v =>
          show rank ((if n.home = none ∨ live s n.home = none then setPh s i (.begun none) else _ : St).ph i) < _
          split
          · rw [rank_setPh]; simp [rank]
          · cases live s n.home with
            | none => dsimp only; rw [rank_setPh]; simp [rank]
            | some r => dsimp only; rw [hpost s r rfl]; decide
        | err x hr => show rank ((setPh _ i .over).ph i) < _; rw [rank_setPh]; simp [rank]
        | canceled => show rank ((setPh _ i .over).ph i) < _; rw [rank_setPh]; simp [rank]
    | err j g =>
      rw [hk] at hd
      have := hd j rfl
      cases hr : s.res j with
      | none => exact absurd hr this
      | some r => exact ⟨_, .err none hn hk hp hr, herr j r⟩
    | errTask j g =>
      rw [hk] at hd
      have := hd j rfl
      cases hr : s.res j with
      | none => exact absurd hr this
      | some r => exact ⟨_, .errTask none hn hk hp hr, herr j r⟩

/-! ### Results do not depend on the schedule -/

theorem threw_unique {e a b} (ha : Threw e a) (hb : Threw e b) : a = b := by
  obtain ⟨x, h1, h2, h3⟩ := ha
  obtain ⟨y, k1, k2, k3⟩ := hb
  by_cases he : isErr e.code
  · rw [h1, k1, h2 he, k2 he]
  · rw [h1, k1, h3 he, k3 he]

theorem gave_unique {o a b} (ha : Gave o a) (hb : Gave o b) : a = b := by
  cases o with
  | ret w => exact Eq.trans ha (Eq.symm hb)
  | throw e => exact threw_unique ha hb

theorem seen_unique {rs a b} (ha : Seen false rs a) (hb : Seen false rs b) : a = b := by
  unfold Seen at ha hb
  split at ha
  · exact ha.elim
  · exact ha.trans hb.symm
  · rcases ha with h | ⟨h, _⟩
    · rcases hb with h' | ⟨h', _⟩
      · exact h.trans h'.symm
      · cases h'
    · cases h
  · exact ha.trans hb.symm

theorem passed_unique {ri a b} (ha : Passed ri a) (hb : Passed ri b) : a = b := by
  cases ri with
  | ok v => exact Eq.trans ha (Eq.symm hb)
  | canceled => exact Eq.trans ha (Eq.symm hb)
  | err x hr =>
    obtain ⟨p, h1, h2, h3⟩ := ha
    obtain ⟨q, k1, k2, k3⟩ := hb
    by_cases he : isErr hr
    · rw [h1, k1, h2 he, k2 he]
    · rw [h1, k1, h3 he, k3 he]

/-- no cancellation, no runner gone -/
def Calm (s : St) : Prop := ∀ i, s.cancels i = false ∧ s.tok i = false ∧ s.dead i = false

/-- C79 (partial: without cancellation and with all runners alive): the results of all tasks are determined by those of the roots, whatever the threads and runners do. Sources come before their continuations. -/
theorem C79_deterministic_partial {cfg s t} (hs : Reach cfg s) (ht : Reach cfg t) (cs : Calm s) (ct : Calm t)
    (hsrc : ∀ (i j : Nat) n, cfg[i]? = some n → n.kind.src = some j → j < i)
    (hroot : ∀ (i : Nat) n, cfg[i]? = some n → n.kind = .root → ∀ a b, s.res i = some a → t.res i = some b → a = b) :
    ∀ (i : Nat) n, cfg[i]? = some n → ∀ a b, s.res i = some a → t.res i = some b → a = b := by
  intro i
  induction i using Nat.strongRecOn with
  | _ i ih =>
    intro n hn a b ha hb
    have ga := ((inv_reach hs).res i n a hn ha).2
    have gb := ((inv_reach ht).res i n b hn hb).2
    have na : ¬ (a = .canceled ∧ (s.cancels i = true ∨ s.tok i = true)) := by
      rintro ⟨_, h | h⟩
      · rw [(cs i).1] at h; cases h
      · rw [(cs i).2.1] at h; cases h
    have nb : ¬ (b = .canceled ∧ (t.cancels i = true ∨ t.tok i = true)) := by
      rintro ⟨_, h | h⟩
      · rw [(ct i).1] at h; cases h
      · rw [(ct i).2.1] at h; cases h
    replace ga := ga.resolve_left na
    replace gb := gb.resolve_left nb
    have same : ∀ j, n.kind.src = some j → ∀ x y, s.res j = some x → t.res j = some y → x = y := by
      intro j hj x y hx hy
      cases hm : cfg[j]? with
      | some m => exact ih j (hsrc i j n hn hj) m hm x y hx hy
      | none => rw [(inv_reach hs).canc j x hm hx, (inv_reach ht).canc j y hm hy]
    cases hk : n.kind with
    | root => exact hroot i n hn hk a b ha hb
    | task o => rw [hk] at ga gb; exact gave_unique ga gb
    | next j f =>
      rw [hk] at ga gb
      have hj : n.kind.src = some j := by rw [hk]; rfl
      rcases ga with ⟨v, q, _, _, h, _⟩ | ⟨x, hx, gx⟩
      · rw [(cs q).2.2] at h; cases h
      · rcases gb with ⟨v, q, _, _, h, _⟩ | ⟨y, hy, gy⟩
        · rw [(ct q).2.2] at h; cases h
        · have := same j hj x y hx hy
          subst this
          cases x with
          | ok v => exact gave_unique gx gy
          | err x hr => exact Eq.trans gx (Eq.symm gy)
          | canceled => exact Eq.trans gx (Eq.symm gy)
    | err j g =>
      rw [hk] at ga gb
      have hj : n.kind.src = some j := by rw [hk]; rfl
      obtain ⟨x, hx, gx⟩ := ga
      obtain ⟨y, hy, gy⟩ := gb
      have := same j hj x y hx hy
      subst this
      rw [(cs j).2.1] at gx
      rw [(ct j).2.1] at gy
      rcases gx with ⟨v, h1, h2⟩ | ⟨e, h1, h2⟩
      · subst h1
        rcases gy with ⟨w, k1, k2⟩ | ⟨e, k1, k2⟩
        · cases k1; rw [h2, k2]
        · exact k1.elim
      · rcases gy with ⟨w, k1, k2⟩ | ⟨e', k1, k2⟩
        · subst k1; exact h1.elim
        · have := seen_unique h1 k1
          subst this
          exact gave_unique h2 k2
    | errTask j g =>
      rw [hk] at ga gb
      have hj : n.kind.src = some j := by rw [hk]; rfl
      obtain ⟨x, hx, gx⟩ := ga
      obtain ⟨y, hy, gy⟩ := gb
      have := same j hj x y hx hy
      subst this
      rw [(cs j).2.1] at gx
      rw [(ct j).2.1] at gy
      rcases gx with ⟨v, h1, h2⟩ | ⟨e, h1, h2⟩
      · subst h1
        rcases gy with ⟨w, k1, k2⟩ | ⟨e, k1, k2⟩
        · cases k1; rw [h2, k2]
        · exact k1.elim
      · rcases gy with ⟨w, k1, k2⟩ | ⟨e', k1, k2⟩
        · subst k1; exact h1.elim
        · have := seen_unique h1 k1
          subst this
          cases hg : g e with
          | ret o =>
            rw [hg] at h2 k2
            cases o with
            | none => exact Eq.trans h2 (Eq.symm k2)
            | some ri => exact passed_unique h2 k2
          | throw x => rw [hg] at h2 k2; exact threw_unique h2 k2

/-! ### What goes wrong -/

/-- C79, negative: a canceled source never makes its `Then` task canceled: the task ends with `Error` and no exception, so a following `ThenErrorIf` for `OperationCanceledException` is not called (its callback would get `Exception(ERROR_CANCELLED)`). -/
theorem C79_cancel_fails {cfg s} (h : Reach cfg s) {i j : Nat} {f home} (hn : cfg[i]? = some ⟨.next j f, home⟩) {r} (hr : s.res i = some r)
    (hj : s.res j = some .canceled) (hc : s.cancels i = false) (ht : s.tok i = false) :
    r ≠ .canceled ∧ ∀ e, Seen false r e → e ≠ .opCanceled := by
  rcases C79_then h hn hr with ⟨_, h1 | h1⟩ | ⟨v, q, h1, _⟩ | ⟨rs, h1, h2⟩
  · rw [hc] at h1; cases h1
  · rw [ht] at h1; cases h1
  · rw [hj] at h1; cases h1
  · rw [hj] at h1; cases h1
    have : r = .err none E_CANCELLED := h2
    subst this
    refine ⟨by simp, ?_⟩
    intro e he
    rcases he with he | ⟨he, _⟩
    · rw [he]; simp
    · cases he

/-- the result of node `i` is not coming any more -/
theorem lost_step {cfg s t} {i : Nat} (h : Step cfg s t) (hl : s.ph i = .lost) : t.ph i = .lost ∧ (t.res i = s.res i ∨ t.res i = some .canceled) := by
  have hset : ∀ (u : St) (k : Nat) p, u.ph i = .lost → k ≠ i → (setPh u k p).ph i = .lost := by
    intro u k p hu hk
    show upd u.ph k p i = .lost
    rw [upd_ne _ _ (fun h => hk h.symm)]; exact hu
  have hfill : ∀ (k : Nat) r p, k ≠ i → (setPh (fill s k r) k p).ph i = .lost ∧ ((setPh (fill s k r) k p).res i = s.res i ∨ (setPh (fill s k r) k p).res i = some .canceled) := by
    intro k r p hk
    exact ⟨hset _ _ _ (by rw [(fill_other s k r).1]; exact hl) hk, .inl (fill_ne s k r (fun h => hk h.symm))⟩
  have hne : ∀ k : Nat, s.ph k ≠ .lost → k ≠ i := by
    intro k hk h; subst h; exact hk hl
  have hpost : ∀ (u : St) (k r : Nat), u.ph i = .lost → u.res = s.res → k ≠ i → (post u k r).ph i = .lost ∧ (post u k r).res i = s.res i := by
    intro u k r hu hur hk
    unfold post
    split
    · exact ⟨hset _ _ _ hu hk, by show u.res i = _; rw [hur]⟩
    · exact ⟨hset _ _ _ hu hk, by show u.res i = _; rw [hur]⟩
  have hstore : ∀ (k : Nat) r p, k ≠ i → (setPh (store s k r) k p).ph i = .lost ∧ ((setPh (store s k r) k p).res i = s.res i ∨ (setPh (store s k r) k p).res i = some .canceled) := by
    intro k r p hk
    cases r with
    | ok v =>
      show (setPh (resolve s k v) k p).ph i = _ ∧ ((setPh (resolve s k v) k p).res i = _ ∨ (setPh (resolve s k v) k p).res i = _)
      unfold resolve
      split <;> exact hfill k _ p hk
    | err x hr => exact hfill k _ p hk
    | canceled => exact hfill k _ p hk
  have herr : ∀ (k j : Nat) (home c : Option Nat) r, k ≠ i → (onErr s k j home c r).ph i = .lost ∧ ((onErr s k j home c r).res i = s.res i ∨ (onErr s k j home c r).res i = some .canceled) := by
    intro k j home c r hk
    have aux : ∀ x : St, (x = match live s home with
        | none => setPh { s with eptr := upd s.eptr k (some (excOf (s.tok j) r)) } k (.begun c)
        | some h =>
          if some h = c then setPh { s with eptr := upd s.eptr k (some (excOf (s.tok j) r)) } k (.begun c)
          else post { s with eptr := upd s.eptr k (some (excOf (s.tok j) r)) } k h) → x.ph i = .lost ∧ x.res i = s.res i := by
      intro x hx
      subst hx
      split
      · exact ⟨hset _ _ _ hl hk, rfl⟩
      · split
        · exact ⟨hset _ _ _ hl hk, rfl⟩
        · exact hpost _ _ _ hl rfl hk
    cases r with
    | ok v => exact hstore k (.ok v) .over hk
    | err x hr => have := aux _ rfl; exact ⟨this.1, .inl this.2⟩
    | canceled => have := aux _ rfl; exact ⟨this.1, .inl this.2⟩
  cases h with
  | @root k n r hn hk hp => exact hfill k _ _ (hne k (by rw [hp]; simp))
  | @createNo k n f hn hk hp ht => exact hfill k _ _ (hne k (by rw [hp]; simp))
  | @create k n f r hn hk hp ht hh => have := hpost s k r hl rfl (hne k (by rw [hp]; simp)); exact ⟨this.1, .inl this.2⟩
  | @next k n j f r c hn hk hp hr =>
    have hki := hne k (by rw [hp]; simp)
    cases r with
    | ok v =>
      show (if n.home = none ∨ live s n.home = c then setPh s k (.begun c) else _ : St).ph i = _ ∧ ((if n.home = none ∨ live s n.home = c then setPh s k (.begun c) else _ : St).res i = _ ∨ _)
      split
      · exact ⟨hset _ _ _ hl hki, .inl rfl⟩
      · cases live s n.home with
        | none => have := hfill k (.err none (norm E_CANCELLED)) .over hki; exact ⟨this.1, .inl (fill_ne s k _ (fun h => hki h.symm))⟩
        | some q => have := hpost s k q hl rfl hki; exact ⟨this.1, .inl this.2⟩
    | err x hr => exact hfill k _ _ hki
    | canceled => exact hfill k _ _ hki
  | @err k n j g r c hn hk hp hr => exact herr k j n.home c r (hne k (by rw [hp]; simp))
  | @errTask k n j g r c hn hk hp hr => exact herr k j n.home c r (hne k (by rw [hp]; simp))
  | @exec k r hp => exact ⟨hset _ _ _ hl (hne k (by rw [hp]; simp)), .inl rfl⟩
  | @drop k r hp hs =>
    exact ⟨hset _ _ _ hl (hne k (by rw [hp]; simp)), .inl rfl⟩
  | @skip k c hp hc => exact hfill k _ _ (hne k (by rw [hp]; simp))
  | @call k n c hn hp hc => exact ⟨hset _ _ _ hl (hne k (by rw [hp]; simp)), .inl rfl⟩
  | @ret k n c hn hp hb => exact ⟨hset _ _ _ hl (hne k (by rw [hp]; simp)), .inl rfl⟩
  | @retTask k n c hn hp hb =>
    split
    · exact hfill k _ _ (hne k (by rw [hp]; simp))
    · exact ⟨hset _ _ _ hl (hne k (by rw [hp]; simp)), .inl rfl⟩
  | @store k r hp => exact hstore k r _ (hne k (by rw [hp]; simp))
  | @bridge k r hp => exact hstore k _ _ (hne k (by rw [hp]; simp))
  | cancel k =>
    refine ⟨by show (fill s k .canceled).ph i = _; rw [(fill_other s k _).1]; exact hl, ?_⟩
    by_cases hk : i = k
    · subst hk
      obtain ⟨q, h1, h2⟩ := fill_res s i .canceled
      rcases h2 with h2 | h2
      · subst h2; exact .inr h1
      · exact .inl (h1.trans h2.symm)
    · exact .inl (fill_ne s k _ hk)
  | token k => exact ⟨hl, .inl rfl⟩
  | stop k => exact ⟨hl, .inl rfl⟩
  | die k => exact ⟨hl, .inl rfl⟩

/-- C79, what goes wrong for ever: a task whose closure was refused or dropped by a stopped runner never gets a result, except by `Cancel` from outside: waiting for it never ends and its continuations never start. -/
theorem C79_lost_fails {cfg s t} {i : Nat} (hst : Steps cfg s t) (hl : s.ph i = .lost) (hr : s.res i = none) :
    t.ph i = .lost ∧ (t.res i = none ∨ t.res i = some .canceled) := by
  induction hst with
  | refl => exact ⟨hl, .inl hr⟩
  | @step u v _ hst ih =>
    have := lost_step hst ih.1
    refine ⟨this.1, ?_⟩
    rcases this.2 with h1 | h1
    · rcases ih.2 with h2 | h2
      · exact .inl (h1.trans h2)
      · exact .inr (h1.trans h2)
    · exact .inr h1

/-! ## canceled tasks are not called -/

/-- node `i` has been canceled, or its token asks for it and it has not succeeded -/
def Asked (s : St) (i : Nat) : Prop := s.res i = some .canceled ∨ (s.tok i = true ∧ ∀ v, s.res i ≠ some (.ok v))

theorem Asked.isCanceled {s i} (h : Asked s i) : isCanceled s i = true := by
  unfold Chain.isCanceled
  rcases h with h | ⟨h, h1⟩
  · rw [h]
  · split
    · next v e => exact absurd e (h1 v)
    · rfl
    · exact h

theorem Asked.congr {s t : St} {i} (h : Asked s i) (hr : t.res i = s.res i) (ht : s.tok i = true → t.tok i = true) : Asked t i := by
  rcases h with h | ⟨h, h1⟩
  · exact .inl (hr.trans h)
  · exact .inr ⟨ht h, fun v => by rw [hr]; exact h1 v⟩

theorem Asked.fill {s i} (h : Asked s i) (k r) (hr : k = i → ∀ v, r ≠ .ok v) : Asked (fill s k r) i := by
  have ht : (Chain.fill s k r).tok = s.tok := (fill_other s k r).2.2.2.1
  by_cases hk : i = k
  · subst hk
    obtain ⟨q, h1, h2⟩ := fill_res s i r
    rcases h2 with h2 | h2
    · subst h2
      rcases h with h | ⟨h, _⟩
      · left; unfold Chain.fill; rw [h]; simp [h]
      · right; rw [ht]; refine ⟨h, fun v e => ?_⟩
        rw [h1] at e; cases e; exact hr rfl v rfl
    · exact h.congr (h1.trans h2.symm) (by rw [ht]; exact id)
  · exact h.congr (fill_ne s k r hk) (by rw [ht]; exact id)

theorem Asked.setPh {s i} (h : Asked s i) (k p) : Asked (setPh s k p) i := h

theorem Asked.resolve {s i} (h : Asked s i) (k v) : Asked (resolve s k v) i := by
  unfold Chain.resolve
  split
  · exact h.fill k _ (by simp)
  · rename_i hn
    refine h.fill k _ fun e => ?_
    subst e; exact absurd h.isCanceled hn

theorem Asked.store {s i} (h : Asked s i) (k r) : Asked (store s k r) i := by
  cases r with
  | ok v => exact h.resolve k v
  | err x hr => exact h.fill k _ (by simp)
  | canceled => exact h.fill k _ (by simp)

theorem Asked.post {s i} (h : Asked s i) (k r) : Asked (post s k r) i := by
  unfold Chain.post; split <;> exact h

theorem calls_fill (s : St) (k r) : (fill s k r).calls = s.calls := (fill_other s k r).2.2.1

theorem calls_setPh (s : St) (k p) : (setPh s k p).calls = s.calls := rfl

theorem calls_resolve (s : St) (k v) : (resolve s k v).calls = s.calls := by
  unfold resolve; split <;> exact calls_fill ..

theorem calls_store (s : St) (k r) : (store s k r).calls = s.calls := by
  cases r with
  | ok v => exact calls_resolve ..
  | err x hr => exact calls_fill ..
  | canceled => exact calls_fill ..

theorem calls_post (s : St) (k r) : (post s k r).calls = s.calls := by
  unfold post; split <;> rfl

theorem asked_step {cfg s t} {i : Nat} (h : Step cfg s t) (ha : Asked s i) (hk : ∀ n, cfg[i]? = some n → n.kind ≠ .root) :
    Asked t i ∧ t.calls.filter (fun e => e.1 == i) = s.calls.filter fun e => e.1 == i := by
  have herr : ∀ k j home c r, Asked (onErr s k j home c r) i ∧ (onErr s k j home c r).calls = s.calls := by
    intro k j home c r
    have aux : ∀ x : St, (x = match live s home with
        | none => setPh { s with eptr := upd s.eptr k (some (excOf (s.tok j) r)) } k (.begun c)
        | some h =>
          if some h = c then setPh { s with eptr := upd s.eptr k (some (excOf (s.tok j) r)) } k (.begun c)
          else post { s with eptr := upd s.eptr k (some (excOf (s.tok j) r)) } k h) → Asked x i ∧ x.calls = s.calls := by
      intro x hx
      subst hx
      split
      · exact ⟨ha, rfl⟩
      · split
        · exact ⟨ha, rfl⟩
        · exact ⟨Asked.post (s := { s with eptr := upd s.eptr k (some (excOf (s.tok j) r)) }) ha _ _, by rw [calls_post]⟩
    cases r with
    | ok v => exact ⟨(ha.resolve k v).setPh _ _, calls_resolve s k v⟩
    | err x hr => exact aux _ rfl
    | canceled => exact aux _ rfl
  cases h with
  | @root k n r hn hkr hp =>
    refine ⟨(ha.fill k _ ?_).setPh _ _, by rw [calls_setPh, calls_fill]⟩
    intro e; subst e; exact absurd hkr (hk n hn)
  | @createNo k n f hn hkr hp ht => exact ⟨(ha.fill k _ (by simp)).setPh _ _, by rw [calls_setPh, calls_fill]⟩
  | @create k n f r hn hkr hp ht hh => exact ⟨ha.post k r, by rw [calls_post]⟩
  | @next k n j f r c hn hkr hp hr =>
    have hf : ∀ r, (∀ v, r ≠ .ok v) → Asked (setPh (fill s k r) k .over) i ∧ (setPh (fill s k r) k .over).calls = s.calls :=
      fun r hr => ⟨(ha.fill k _ fun _ => hr).setPh _ _, calls_fill ..⟩
    have : Asked (onNext s k n.home c r) i ∧ (onNext s k n.home c r).calls = s.calls := by
      cases r with
      | ok v =>
        unfold onNext; dsimp only
        split
        · exact ⟨ha, rfl⟩
        · split
          · exact hf _ (by simp)
          · exact ⟨ha.post _ _, calls_post ..⟩
      | err x hr => exact hf _ (by simp [forward])
      | canceled => exact hf _ (by simp [forward])
    exact ⟨this.1, by rw [this.2]⟩
  | @err k n j g r c hn hkr hp hr => have := herr k j n.home c r; exact ⟨this.1, by rw [this.2]⟩
  | @errTask k n j g r c hn hkr hp hr => have := herr k j n.home c r; exact ⟨this.1, by rw [this.2]⟩
  | @exec k r hp => exact ⟨ha, rfl⟩
  | @drop k r hp hs => exact ⟨ha, rfl⟩
  | @skip k c hp hc => exact ⟨(ha.fill k _ (by simp)).setPh _ _, by rw [calls_setPh, calls_fill]⟩
  | @call k n c hn hp hc =>
    refine ⟨ha, ?_⟩
    have : k ≠ i := by intro e; subst e; rw [ha.isCanceled] at hc; cases hc
    simp [this]
  | @ret k n c hn hp hb => exact ⟨ha, rfl⟩
  | @retTask k n c hn hp hb =>
    split
    · exact ⟨(ha.fill k _ (by simp)).setPh _ _, by rw [calls_setPh, calls_fill]⟩
    · exact ⟨ha, rfl⟩
  | @store k r hp => exact ⟨(ha.store k r).setPh _ _, by rw [calls_setPh, calls_store]⟩
  | @bridge k r hp => exact ⟨(ha.store k _).setPh _ _, by rw [calls_setPh, calls_store]⟩
  | cancel k => exact ⟨(ha.fill k .canceled (by simp)).congr rfl id, by rw [calls_fill]⟩
  | token k =>
    refine ⟨ha.congr rfl fun h => ?_, rfl⟩
    by_cases e : i = k
    · subst e; exact upd_same ..
    · show upd s.tok k true i = true; rw [upd_ne _ _ e]; exact h
  | stop k => exact ⟨ha, rfl⟩
  | die k => exact ⟨ha, rfl⟩

/-- C79: from the moment a task or continuation is canceled (by `Cancel`, or by its token unless it has succeeded), its callback is not called any more, and it never succeeds. -/
theorem C79_cancelled_not_called {cfg s t} {i : Nat} (hst : Steps cfg s t) (ha : s.res i = some .canceled ∨ (s.tok i = true ∧ ∀ v, s.res i ≠ some (.ok v)))
    (hk : ∀ n, cfg[i]? = some n → n.kind ≠ .root) :
    t.calls.filter (fun e => e.1 == i) = s.calls.filter (fun e => e.1 == i) ∧ ∀ v, t.res i ≠ some (.ok v) := by
  have : Asked t i ∧ t.calls.filter (fun e => e.1 == i) = s.calls.filter (fun e => e.1 == i) := by
    induction hst with
    | refl => exact ⟨ha, rfl⟩
    | step _ h ih =>
      have := asked_step h ih.1 hk
      exact ⟨this.1, this.2.trans ih.2⟩
  refine ⟨this.2, fun v e => ?_⟩
  rcases this.1 with h | ⟨_, h⟩
  · rw [h] at e; cases e
  · exact h v e

/-- non-vacuity: a task in the queue of its runner is canceled, then the runner takes it -/
example : ∃ s t, Reach [⟨.task (.ret 1), some 0⟩] s ∧ s.res 0 = some .canceled ∧ s.ph 0 = .posted 0 ∧ Steps [⟨.task (.ret 1), some 0⟩] s t ∧ t.ph 0 = .over ∧ t.calls = [] := by
  let cfg : List Node := [⟨.task (.ret 1), some 0⟩]
  have r1 : Reach cfg (post {} 0 0) := .step .init (.create (i := 0) (n := ⟨.task (.ret 1), some 0⟩) (f := .ret 1) rfl rfl rfl rfl rfl)
  have r2 := Reach.step r1 (.cancel 0)
  refine ⟨_, _, r2, rfl, rfl, .step (.step .refl (.exec (i := 0) (r := 0) rfl)) (.skip (i := 0) (c := some 0) rfl rfl), rfl, rfl⟩

end Verif.Chain
