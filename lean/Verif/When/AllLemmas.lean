import Verif.When.All
import Verif.Async.Lemmas

namespace Verif.When.All
open Verif.Common
open Verif.Async (Status Kind E_PENDING S_OK E_CANCELLED E_UNEXPECTED norm)

/-- the task is completed (a null task counts as completed) -/
def Done (o : Op) : Prop := o.null = true ∨ o.kind ≠ none

/-- the error code of a completed task: `S_OK` for a success -/
def code (o : Op) : Nat := if o.null then S_OK else match o.kind with | none => S_OK | some k => k.hr

structure OpMono (o o' : Op) : Prop where
  null : o'.null = o.null
  kind : ∀ k, o.kind = some k → o'.kind = some k
  hr : ∀ k, o.kind = some k → o.hr = k.hr → o'.hr = k.hr

def Mono (l l' : List Op) : Prop := l'.length = l.length ∧ ∀ (j : Nat) (o : Op), l[j]? = some o → ∃ o', l'[j]? = some o' ∧ OpMono o o'

theorem OpMono.refl (o : Op) : OpMono o o := ⟨rfl, fun _ h => h, fun _ _ h => h⟩
theorem Mono.refl (l : List Op) : Mono l l := ⟨rfl, fun _ o h => ⟨o, h, .refl o⟩⟩

theorem Mono.set {l : List Op} {j : Nat} {o o' : Op} (h : l[j]? = some o) (hm : OpMono o o') : Mono l (l.set j o') := by
  refine ⟨by simp, fun k x hk => ?_⟩
  by_cases e : j = k
  · subst e
    rw [h] at hk; cases hk
    exact ⟨o', by rw [List.getElem?_set_self (List.getElem?_eq_some_iff.1 h).1], hm⟩
  · exact ⟨x, by rw [List.getElem?_set_ne e, hk], .refl x⟩

theorem OpMono.done {o o' : Op} (h : OpMono o o') (hd : Done o) : Done o' ∧ code o' = code o := by
  rcases hd with hd | hd
  · exact ⟨.inl (by rw [h.null, hd]), by simp [code, h.null, hd]⟩
  · cases hk : o.kind with
    | none => exact absurd hk hd
    | some k => exact ⟨.inr (by simp [h.kind k hk]), by simp [code, h.null, hk, h.kind k hk]⟩

/-- `first` is what the first `m` tasks demand -/
def FirstOk (ops : List Op) (raced : List Nat) (first m : Nat) : Prop :=
  (∀ k < m, ∃ o, ops[k]? = some o ∧ Done o) ∧
  ((first = S_OK ∧ ∀ k < m, ∀ o, ops[k]? = some o → code o = S_OK) ∨
   (first ≠ S_OK ∧ ∃ (k : Nat) (o : Op), k < m ∧ ops[k]? = some o ∧ code o ≠ S_OK ∧ (∀ k' < k, ∀ o', ops[k']? = some o' → code o' = S_OK) ∧
     (first = code o ∨ (first = E_PENDING ∧ k ∈ raced))))

theorem FirstOk.mono {ops ops' raced raced' first m} (h : FirstOk ops raced first m) (hm : Mono ops ops') (hr : ∀ x ∈ raced, x ∈ raced') : FirstOk ops' raced' first m := by
  have key : ∀ k < m, ∀ o', ops'[k]? = some o' → ∃ o, ops[k]? = some o ∧ code o' = code o := by
    intro k hk o' ho'
    obtain ⟨o, ho, hd⟩ := h.1 k hk
    obtain ⟨o'', e, mo⟩ := hm.2 k o ho
    rw [e] at ho'; cases ho'
    exact ⟨o, ho, (mo.done hd).2⟩
  refine ⟨fun k hk => ?_, ?_⟩
  · obtain ⟨o, ho, hd⟩ := h.1 k hk
    obtain ⟨o', e, mo⟩ := hm.2 k o ho
    exact ⟨o', e, (mo.done hd).1⟩
  · rcases h.2 with ⟨h1, h2⟩ | ⟨h1, k, o, hk, ho, hc, hb, hf⟩
    · refine .inl ⟨h1, fun k hk o' ho' => ?_⟩
      obtain ⟨o, ho, e⟩ := key k hk o' ho'
      rw [e]; exact h2 k hk o ho
    · obtain ⟨o0, ho0, hd⟩ := h.1 k hk
      rw [ho] at ho0; cases ho0
      obtain ⟨o', e, mo⟩ := hm.2 k o ho
      have hco := (mo.done hd).2
      refine .inr ⟨h1, k, o', hk, e, by rw [hco]; exact hc, ?_, by rw [hco]; exact hf.imp id (fun h => ⟨h.1, hr _ h.2⟩)⟩
      intro k' hk' o'' ho''
      obtain ⟨o3, ho3, e3⟩ := key k' (by omega) o'' ho''
      rw [e3]; exact hb k' hk' o3 ho3

/-- task `j` is the next one -/
def Pos (s : St) (j : Nat) : Prop := j < s.ops.length ∧ s.pend + j = s.ops.length ∧ FirstOk s.ops s.raced s.first j

/-- thread `i` may work without a reference of its own because the creator has one -/
def HC (s : St) (i h : Nat) : Prop := h = 0 → i = 0 ∧ s.creating = true

def T (s : St) (i : Nat) : PC → Prop
  | .idle => True
  | .unwind _ => True
  | .writeHr j k => ∃ o, s.ops[j]? = some o ∧ o.null = false ∧ o.kind = some k
  | .swap j => ∃ o k, s.ops[j]? = some o ∧ o.null = false ∧ o.kind = some k ∧ o.hr = k.hr
  | .invoke j => Pos s j ∧ ∃ o k, s.ops[j]? = some o ∧ o.null = false ∧ o.kind = some k ∧ o.hr = k.hr
  | .install h => s.pend ≠ 0 ∧ (∃ j, Pos s j) ∧ HC s i h
  | .add j h => Pos s j ∧ HC s i h
  | .addLocked j h => Pos s j ∧ HC s i h ∧ ∃ o, s.ops[j]? = some o ∧ o.null = false ∧ o.locked = true
  | .addPush j h => Pos s j ∧ HC s i h ∧ ∃ o, s.ops[j]? = some o ∧ o.null = false ∧ o.locked = true
  | .refused j _ => Pos s j ∧ ∃ o k, s.ops[j]? = some o ∧ o.null = false ∧ o.kind = some k ∧ (o.hr = k.hr ∨ j ∈ s.raced)
  | .handler j st h => Pos s j ∧ h ≠ 0 ∧ ∃ o, s.ops[j]? = some o ∧
      ((o.null = true ∧ st = .completed) ∨ (o.null = false ∧ ∃ k, o.kind = some k ∧ st = k.status ∧ (o.hr = k.hr ∨ j ∈ s.raced)))
  | .gotHr j e h => Pos s j ∧ h ≠ 0 ∧ ∃ o, s.ops[j]? = some o ∧ Done o ∧ code o ≠ S_OK ∧ e ≠ S_OK ∧ (e = code o ∨ (e = E_PENDING ∧ j ∈ s.raced))
  | .dec j h => h ≠ 0 ∧ j < s.ops.length ∧ s.pend + j = s.ops.length ∧ FirstOk s.ops s.raced s.first (j + 1)
  | .resolve h => h ≠ 0 ∧ s.pend = 0 ∧ FirstOk s.ops s.raced s.first s.ops.length

/-- the thread is the one that works for `WhenAll` -/
def tok : PC → Nat
  | .idle => 0 | .unwind _ => 0 | .writeHr _ _ => 0 | .swap _ => 0
  | _ => 1

def tokL (o : Op) : Nat := if o.listed then 1 else 0

/-- references held by a thread -/
def held : PC → Nat
  | .unwind h => h | .install h => h | .handler _ _ h => h | .gotHr _ _ h => h | .dec _ h => h | .resolve h => h
  | .add _ h => h + 1 | .addLocked _ h => h + 1 | .addPush _ h => h + 1 | .refused _ h => h + 1 | .invoke _ => 1
  | .idle => 0 | .writeHr _ _ => 0 | .swap _ => 0

def OpInv (o : Op) : Prop :=
  (o.null = true → o.kind = none) ∧ (o.kind = none → o.hr = E_PENDING) ∧ (∀ k, o.kind = some k → o.hr = E_PENDING ∨ o.hr = k.hr)

structure Inv (s : St) : Prop where
  T : ∀ i p, s.threads[i]? = some p → T s i p
  one : sumBy tok s.threads + sumBy tokL s.ops + s.resolves.length = 1
  L : ∀ (j : Nat) (o : Op), s.ops[j]? = some o → o.listed = true → Pos s j ∧ o.null = false
  op : ∀ o ∈ s.ops, OpInv o
  fin : s.resolves ≠ [] → s.resolves = [s.first] ∧ s.pend = 0 ∧ FirstOk s.ops s.raced s.first s.ops.length
  own : ∀ r, s.own = some (some r) → s.resolves = [r]
  own' : s.resolves ≠ [] → s.own ≠ none
  wake : ∀ (j : Nat) (o : Op), s.ops[j]? = some o → o.kind ≠ none → (o.listed = true ∨ ∃ (i : Nat) (h : Nat), s.threads[i]? = some (.addPush j h)) →
    ∃ i : Nat, s.threads[i]? = some (.swap j) ∨ ∃ k, s.threads[i]? = some (.writeHr j k)
  ref : s.ref = s.user + sumBy held s.threads + sumBy tokL s.ops
  freed : s.freed = if s.ref = 0 then 1 else 0
  user : s.creating = true → 1 ≤ s.user

/-! ### Frame rules -/

structure Frame (s s' : St) : Prop where
  ops : Mono s.ops s'.ops
  raced : ∀ x ∈ s.raced, x ∈ s'.raced

/-- a thread that does not work for `WhenAll` only relies on what grows -/
theorem T_other {s s' : St} {i : Nat} {p : PC} (h : T s i p) (ht : tok p = 0) (f : Frame s s') : T s' i p := by
  cases p <;> simp only [tok] at ht <;> try trivial
  case writeHr j k =>
    obtain ⟨o, h1, h2, h3⟩ := h
    obtain ⟨o', e, m⟩ := f.ops.2 j o h1
    exact ⟨o', e, by rw [m.null, h2], m.kind k h3⟩
  case swap j =>
    obtain ⟨o, k, h1, h2, h3, h4⟩ := h
    obtain ⟨o', e, m⟩ := f.ops.2 j o h1
    exact ⟨o', k, e, by rw [m.null, h2], m.kind k h3, m.hr k h3 h4⟩
  all_goals cases ht

structure Keep (s s' : St) : Prop extends Frame s s' where
  pend : s'.pend = s.pend
  first : s'.first = s.first
  creating : s.creating = true → s'.creating = true
  lock : ∀ (j : Nat) (o o' : Op), s.ops[j]? = some o → s'.ops[j]? = some o' → o.locked = true → o'.locked = true

theorem Pos.keep {s s' : St} {j} (h : Pos s j) (k : Keep s s') : Pos s' j :=
  ⟨by rw [k.ops.1]; exact h.1, by rw [k.ops.1, k.pend]; exact h.2.1, by rw [k.first]; exact h.2.2.mono k.ops k.raced⟩

theorem T_keep {s s' : St} {i : Nat} {p : PC} (h : T s i p) (f : Keep s s') : T s' i p := by
  have hc : ∀ {h}, HC s i h → HC s' i h := fun hh e => ⟨(hh e).1, f.creating (hh e).2⟩
  cases p with
  | idle => trivial
  | unwind => trivial
  | writeHr j k => exact T_other h rfl f.toFrame
  | swap j => exact T_other h rfl f.toFrame
  | invoke j =>
    obtain ⟨hp, o, k, h1, h2, h3, h4⟩ := h
    obtain ⟨o', e, m⟩ := f.ops.2 j o h1
    exact ⟨hp.keep f, o', k, e, by rw [m.null, h2], m.kind k h3, m.hr k h3 h4⟩
  | install => exact ⟨by rw [f.pend]; exact h.1, h.2.1.imp fun _ hp => hp.keep f, hc h.2.2⟩
  | add => exact ⟨h.1.keep f, hc h.2⟩
  | addLocked j =>
    obtain ⟨hp, hh, o, h1, h2, h3⟩ := h
    obtain ⟨o', e, m⟩ := f.ops.2 j o h1
    exact ⟨hp.keep f, hc hh, o', e, by rw [m.null, h2], f.lock j o o' h1 e h3⟩
  | addPush j =>
    obtain ⟨hp, hh, o, h1, h2, h3⟩ := h
    obtain ⟨o', e, m⟩ := f.ops.2 j o h1
    exact ⟨hp.keep f, hc hh, o', e, by rw [m.null, h2], f.lock j o o' h1 e h3⟩
  | refused j =>
    obtain ⟨hp, o, k, h1, h2, h3, h4⟩ := h
    obtain ⟨o', e, m⟩ := f.ops.2 j o h1
    exact ⟨hp.keep f, o', k, e, by rw [m.null, h2], m.kind k h3, h4.imp (m.hr k h3) (f.raced _)⟩
  | handler j =>
    obtain ⟨hp, hh, o, h1, h2⟩ := h
    obtain ⟨o', e, m⟩ := f.ops.2 j o h1
    refine ⟨hp.keep f, hh, o', e, h2.imp (fun x => ⟨by rw [m.null]; exact x.1, x.2⟩) ?_⟩
    rintro ⟨a, k, b, c, d⟩
    exact ⟨by rw [m.null, a], k, m.kind k b, c, d.imp (m.hr k b) (f.raced _)⟩
  | gotHr j =>
    obtain ⟨hp, hh, o, h1, h2, h3, h4, h5⟩ := h
    obtain ⟨o', e, m⟩ := f.ops.2 j o h1
    obtain ⟨d, ec⟩ := m.done h2
    exact ⟨hp.keep f, hh, o', e, d, by rw [ec]; exact h3, h4, by rw [ec]; exact h5.imp id (fun x => ⟨x.1, f.raced _ x.2⟩)⟩
  | dec j =>
    exact ⟨h.1, by rw [f.ops.1]; exact h.2.1, by rw [f.ops.1, f.pend]; exact h.2.2.1, by rw [f.first]; exact h.2.2.2.mono f.ops f.raced⟩
  | resolve =>
    exact ⟨h.1, by rw [f.pend]; exact h.2.1, by rw [f.first, f.ops.1]; exact h.2.2.mono f.ops f.raced⟩

theorem get_set {α} {l : List α} {i j : Nat} {x y : α} (h : (l.set i x)[j]? = some y) : (i = j ∧ y = x) ∨ (i ≠ j ∧ l[j]? = some y) := by
  by_cases e : i = j
  · subst e
    have hl : i < l.length := by
      have := (List.getElem?_eq_some_iff.1 h).1
      rwa [List.length_set] at this
    rw [List.getElem?_set_self hl] at h
    exact .inl ⟨rfl, by cases h; rfl⟩
  · rw [List.getElem?_set_ne e] at h; exact .inr ⟨e, h⟩

theorem no_other {s : St} (hI : Inv s) {i : Nat} {p : PC} (h : s.threads[i]? = some p) (ht : tok p = 1) :
    (∀ i' q, i ≠ i' → s.threads[i']? = some q → tok q = 0) ∧ (∀ (j : Nat) (o : Op), s.ops[j]? = some o → o.listed = false) ∧ s.resolves = [] := by
  have h1 := hI.one
  have h2 := le_sumBy tok _ _ _ h
  refine ⟨fun i' q e hq => ?_, fun j o ho => ?_, ?_⟩
  · have := add_le_sumBy tok _ _ _ _ _ e h hq; omega
  · have := le_sumBy tokL _ _ _ ho
    cases hl : o.listed with
    | false => rfl
    | true => simp [tokL, hl] at this; omega
  · exact List.length_eq_zero_iff.1 (by omega)

/-- a step of the thread that works for `WhenAll` -/
theorem T_token {s s' : St} (hI : Inv s) {i : Nat} {p q : PC} (h : s.threads[i]? = some p) (ht : tok p = 1) (f : Frame s s')
    (hs : s'.threads = s.threads.set i q) (hq : T s' i q) : ∀ i' x, s'.threads[i']? = some x → T s' i' x := by
  intro i' x hx
  rw [hs] at hx
  rcases get_set hx with ⟨e, rfl⟩ | ⟨e, hx'⟩
  · exact e ▸ hq
  · exact T_other (hI.T i' x hx') ((no_other hI h ht).1 i' x e hx') f

/-- a step of any thread that changes nothing the others rely on -/
theorem T_any {s s' : St} (hI : Inv s) {i : Nat} {q : PC} (f : Keep s s')
    (hs : s'.threads = s.threads.set i q) (hq : T s' i q) : ∀ i' x, s'.threads[i']? = some x → T s' i' x := by
  intro i' x hx
  rw [hs] at hx
  rcases get_set hx with ⟨e, rfl⟩ | ⟨e, hx'⟩
  · exact e ▸ hq
  · exact T_keep (hI.T i' x hx') f

/-- a waker stays unless it is the thread that moves -/
theorem wake_keep {l : List PC} {i j : Nat} {p q : PC} (hp : l[i]? = some p) (h1 : p ≠ .swap j) (h2 : ∀ k, p ≠ .writeHr j k)
    (h : ∃ i' : Nat, l[i']? = some (.swap j) ∨ ∃ k, l[i']? = some (.writeHr j k)) :
    ∃ i' : Nat, (l.set i q)[i']? = some (.swap j) ∨ ∃ k, (l.set i q)[i']? = some (.writeHr j k) := by
  obtain ⟨i', h⟩ := h
  have e : i ≠ i' := by
    rintro rfl
    rcases h with h | ⟨k, h⟩
    · rw [hp] at h; cases h; exact h1 rfl
    · rw [hp] at h; cases h; exact h2 k rfl
  exact ⟨i', by rw [List.getElem?_set_ne e]; exact h⟩

theorem set_same {l : List Op} {j : Nat} {o o' : Op} (h : l[j]? = some o) : sumBy tokL (l.set j o') + tokL o = sumBy tokL l + tokL o' :=
  sumBy_set tokL l j o' o h

end Verif.When.All
