import Verif.When.AllLemmas
import Verif.Async.Lemmas

namespace Verif.When.All
open Verif.Common
open Verif.Async (Status Kind E_PENDING S_OK E_CANCELLED E_UNEXPECTED norm)

theorem kind_hr_ne (k : Kind) : k.hr ≠ E_PENDING := Verif.Async.Kind.hr_ne k
theorem norm_ne (e : Nat) : norm e ≠ S_OK := by
  unfold norm
  split
  · decide
  · rename_i h; exact fun e' => h (.inr e')
theorem kind_ok (k : Kind) : k.hr = S_OK ↔ k.status = .completed := by
  cases k with
  | resolve => simp [Kind.hr, Kind.status]
  | error e => simp [Kind.hr, Kind.status, norm_ne]
  | exc x e => simp [Kind.hr, Kind.status, norm_ne]
  | cancel => simp [Kind.hr, Kind.status]; decide
theorem kind_cancel (k : Kind) (h : k.status = .canceled) : k.hr = E_CANCELLED := by
  cases k <;> simp_all [Kind.hr, Kind.status]
theorem kind_ne (k : Kind) : k.status ≠ .started := by cases k <;> simp [Kind.status]

theorem ref_pos {s : St} {i : Nat} {p : PC} (hT : T s i p) (h : s.threads[i]? = some p) (ht : tok p = 1)
    (hr : s.ref = s.user + sumBy held s.threads + sumBy tokL s.ops) (hu : s.creating = true → 1 ≤ s.user) : s.ref ≠ 0 := by
  have hl := le_sumBy held _ _ _ h
  have : held p ≠ 0 ∨ s.creating = true := by
    cases p with
    | idle => cases ht
    | unwind => cases ht
    | writeHr => cases ht
    | swap => cases ht
    | install n =>
      by_cases e : n = 0
      · exact .inr (hT.2.2 e).2
      · exact .inl e
    | handler => exact .inl hT.2.1
    | gotHr => exact .inl hT.2.1
    | dec => exact .inl hT.1
    | resolve => exact .inl hT.1
    | _ => left; simp [held]
  rcases this with h1 | h1
  · omega
  · have := hu h1; omega

/-- a step of the thread that works for `WhenAll`, which keeps working -/
theorem inv_tok {s s' : St} (hI : Inv s) {i : Nat} {p q : PC} (h : s.threads[i]? = some p) (ht : tok p = 1) (hq : tok q = 1)
    (hs : s'.threads = s.threads.set i q) (hm : Mono s.ops s'.ops) (hra : ∀ x ∈ s.raced, x ∈ s'.raced)
    (hl : sumBy tokL s'.ops = 0) (hop : ∀ o ∈ s'.ops, OpInv o)
    (hT : T s' i q) (hp : ∀ j n, q = .addPush j n → ∀ o, s'.ops[j]? = some o → o.kind = none)
    (hres : s'.resolves = s.resolves) (ho : s'.own = s.own) (hu : s'.user = s.user) (hc : s'.creating = s.creating)
    (hr : s'.ref + held p = s.ref + held q) (hf : s'.freed = s.freed) : Inv s' := by
  obtain ⟨n1, n2, n3⟩ := no_other hI h ht
  have hli : i < s.threads.length := (List.getElem?_eq_some_iff.1 h).1
  have hi : s'.threads[i]? = some q := by rw [hs, List.getElem?_set_self hli]
  have s1 := sumBy_set tok _ _ q _ h
  have s2 := sumBy_set held _ _ q _ h
  rw [← hs] at s1 s2
  have h0 : sumBy tokL s.ops = 0 := (sumBy_eq_zero _ _).2 fun o hm => by
    obtain ⟨j, hj⟩ := List.getElem?_of_mem hm
    simp [tokL, n2 j o hj]
  have hlist : ∀ (j : Nat) (o : Op), s'.ops[j]? = some o → o.listed = false := by
    intro j o hj
    have := (sumBy_eq_zero _ _).1 hl o (List.mem_of_getElem? hj)
    cases e : o.listed with
    | false => rfl
    | true => simp [tokL, e] at this
  have hone := hI.one
  have href := hI.ref
  have hTT := T_token hI h ht ⟨hm, hra⟩ hs hT
  have href' : s'.ref = s'.user + sumBy held s'.threads + sumBy tokL s'.ops := by rw [hu, hl]; omega
  have huser : s'.creating = true → 1 ≤ s'.user := by rw [hc, hu]; exact hI.user
  have hr0 := ref_pos (hI.T i p h) h ht hI.ref hI.user
  have hr1 := ref_pos hT hi hq href' huser
  refine ⟨hTT, by rw [hl, hres]; omega, ?_, hop, ?_, by rw [ho, hres]; exact hI.own, by rw [ho, hres]; exact hI.own', ?_, href', ?_, huser⟩
  · intro j o hj e; rw [hlist j o hj] at e; cases e
  · rw [hres, n3]; intro e; exact absurd rfl e
  · intro j o hj hk hw
    rcases hw with hw | ⟨i', n, hw⟩
    · rw [hlist j o hj] at hw; cases hw
    · rw [hs] at hw
      rcases get_set hw with ⟨_, e⟩ | ⟨e, hw'⟩
      · exact absurd (hp j n e.symm o hj) hk
      · have := n1 i' _ e hw'; cases this
  · rw [hf, hI.freed, if_neg hr0, if_neg hr1]

theorem op_mono_listed {o : Op} {b : Bool} : OpMono o { o with listed := b } := ⟨rfl, fun _ h => h, fun _ _ h => h⟩
theorem op_mono_locked {o : Op} {b : Bool} : OpMono o { o with locked := b } := ⟨rfl, fun _ h => h, fun _ _ h => h⟩

theorem op_set {l : List Op} {j : Nat} {o : Op} (h : ∀ o ∈ l, OpInv o) (ho : OpInv o) : ∀ x ∈ l.set j o, OpInv x := by
  intro x hx
  rcases mem_set hx with rfl | hx
  · exact ho
  · exact h x hx

theorem Pos.index {s : St} {j} (h : Pos s j) : s.ops.length - s.pend = j := by have := h.2.1; omega

theorem FirstOk.snoc {ops raced first m} (h : FirstOk ops raced first m) {o : Op} (ho : ops[m]? = some o) (hd : Done o) (hc : code o = S_OK) :
    FirstOk ops raced first (m + 1) := by
  refine ⟨fun k hk => ?_, ?_⟩
  · rcases Nat.lt_succ_iff_lt_or_eq.1 hk with hk | rfl
    · exact h.1 k hk
    · exact ⟨o, ho, hd⟩
  · rcases h.2 with ⟨h1, h2⟩ | ⟨h1, k, x, hk, hh⟩
    · refine .inl ⟨h1, fun k hk x hx => ?_⟩
      rcases Nat.lt_succ_iff_lt_or_eq.1 hk with hk | rfl
      · exact h2 k hk x hx
      · rw [ho] at hx; cases hx; exact hc
    · exact .inr ⟨h1, k, x, by omega, hh⟩

theorem FirstOk.snoc_err {ops raced first m} (h : FirstOk ops raced first m) {o : Op} {e : Nat} (ho : ops[m]? = some o) (hd : Done o) (hc : code o ≠ S_OK)
    (he : e ≠ S_OK) (hv : e = code o ∨ (e = E_PENDING ∧ m ∈ raced)) : FirstOk ops raced (if first = S_OK then e else first) (m + 1) := by
  refine ⟨fun k hk => ?_, ?_⟩
  · rcases Nat.lt_succ_iff_lt_or_eq.1 hk with hk | rfl
    · exact h.1 k hk
    · exact ⟨o, ho, hd⟩
  · rcases h.2 with ⟨h1, h2⟩ | ⟨h1, k, x, hk, hh⟩
    · rw [if_pos h1]
      exact .inr ⟨he, m, o, by omega, ho, hc, h2, hv⟩
    · rw [if_neg h1]; exact .inr ⟨h1, k, x, by omega, hh⟩

theorem code_kind {o : Op} {k : Kind} (hn : o.null = false) (hk : o.kind = some k) : code o = k.hr := by simp [code, hn, hk]

theorem inv_init {s} (h : Init s) : Inv s := by
  obtain ⟨ns, n, hne, rfl⟩ := h
  have hr : ∀ (f : PC → Nat), f .idle = 0 → sumBy f (List.replicate n PC.idle) = 0 := fun f hf =>
    (sumBy_eq_zero _ _).2 fun x hx => by rw [List.eq_of_mem_replicate hx]; exact hf
  have hl : ∀ (ns : List Bool), sumBy tokL (ns.map fun b => ({ null := b } : Op)) = 0 := fun ns =>
    (sumBy_eq_zero _ _).2 fun x hx => by
      obtain ⟨b, _, rfl⟩ := List.mem_map.1 hx; rfl
  have hlen : 0 < ns.length := List.length_pos_iff.2 hne
  have hop : ∀ (j : Nat) (o : Op), (ns.map fun b => ({ null := b } : Op))[j]? = some o → o.kind = none ∧ o.listed = false := by
    intro j o ho
    obtain ⟨b, _, rfl⟩ := List.mem_map.1 (List.mem_of_getElem? ho); exact ⟨rfl, rfl⟩
  refine ⟨?_, ?_, ?_, ?_, ?_, ?_, ?_, ?_, ?_, ?_, ?_⟩
  · intro i p hp
    cases i with
    | zero =>
      simp at hp; subst hp
      refine ⟨by show ns.length ≠ 0; omega, ⟨0, by simpa using hlen, by simp, ?_⟩, fun _ => ⟨rfl, rfl⟩⟩
      exact ⟨by intro k hk; omega, .inl ⟨rfl, by intro k hk; omega⟩⟩
    | succ i =>
      simp at hp
      rw [List.getElem?_replicate] at hp
      split at hp
      · cases hp; trivial
      · cases hp
  · show sumBy tok (_ :: _) + _ + _ = 1
    rw [sumBy_cons, hr _ rfl, hl]; rfl
  · intro j o ho e; rw [(hop j o ho).2] at e; cases e
  · intro o ho
    obtain ⟨j, hj⟩ := List.getElem?_of_mem ho
    have := (hop j o hj).1
    obtain ⟨b, _, rfl⟩ := List.mem_map.1 ho
    exact ⟨fun _ => this, fun _ => rfl, fun k hk => by rw [this] at hk; cases hk⟩
  · intro e; exact absurd rfl e
  · intro r e; cases e
  · intro e; exact absurd rfl e
  · intro j o ho e; exact absurd (hop j o ho).1 e
  · show 1 = 1 + sumBy held (_ :: _) + _
    rw [sumBy_cons, hr _ rfl, hl]; rfl
  · rfl
  · intro _; exact Nat.le_refl _

theorem status_started {o : Op} : o.status = .started ↔ o.kind = none := by
  unfold Op.status
  cases h : o.kind with
  | none => simp
  | some k => simp [kind_ne k]

theorem inv_step {s s'} (hI : Inv s) (hs : Step s s') : Inv s' := by
  have nolist : ∀ {i : Nat} {p : PC}, s.threads[i]? = some p → tok p = 1 → sumBy tokL s.ops = 0 := by
    intro i p h ht
    refine (sumBy_eq_zero _ _).2 fun o hm => ?_
    obtain ⟨j, hj⟩ := List.getElem?_of_mem hm
    simp [tokL, (no_other hI h ht).2.1 j o hj]
  cases hs with
  | win i j k o h ho hn hk =>
    have hm : OpMono o { o with kind := some k } := ⟨rfl, (fun k' e => by rw [hk] at e; cases e), (fun k' e => by rw [hk] at e; cases e)⟩
    have f : Keep s { s with ops := s.ops.set j { o with kind := some k }, threads := s.threads.set i (.writeHr j k) } := by
      refine ⟨⟨Mono.set ho hm, fun _ h => h⟩, rfl, rfl, id, ?_⟩
      intro j' a b ha hb hl
      rcases get_set hb with ⟨rfl, rfl⟩ | ⟨e, hb'⟩
      · rw [ho] at ha; cases ha; exact hl
      · rw [ha] at hb'; cases hb'; exact hl
    have hjl : j < s.ops.length := (List.getElem?_eq_some_iff.1 ho).1
    have hil : i < s.threads.length := (List.getElem?_eq_some_iff.1 h).1
    have s1 := sumBy_set tok _ _ (.writeHr j k) _ h
    have s2 := sumBy_set held _ _ (.writeHr j k) _ h
    have s3 := set_same (o' := { o with kind := some k }) ho
    simp only [tok, held, tokL] at s1 s2 s3
    have hone := hI.one
    have href := hI.ref
    refine ⟨T_any hI f rfl ⟨_, List.getElem?_set_self hjl, hn, rfl⟩, ?_, ?_, ?_, ?_, hI.own, hI.own', ?_, ?_, hI.freed, hI.user⟩
    · show sumBy tok (s.threads.set i _) + sumBy tokL (s.ops.set j _) + s.resolves.length = 1; omega
    · intro j' a ha hl
      rcases get_set ha with ⟨rfl, rfl⟩ | ⟨e, ha'⟩
      · exact ⟨(hI.L j o ho hl).1.keep f, hn⟩
      · exact ⟨(hI.L j' a ha' hl).1.keep f, (hI.L j' a ha' hl).2⟩
    · refine op_set hI.op ⟨fun e => ?_, fun e => ?_, fun k' e => ?_⟩
      · rw [show o.null = true from e] at hn; cases hn
      · cases e
      · exact .inl ((hI.op o (List.mem_of_getElem? ho)).2.1 hk)
    · intro e
      obtain ⟨a, b, c⟩ := hI.fin e
      exact ⟨a, b, by show FirstOk (s.ops.set j _) _ _ (s.ops.set j _).length; rw [List.length_set]; exact c.mono f.ops f.raced⟩
    · intro j' a ha hk' hw
      show ∃ i' : Nat, (s.threads.set i _)[i']? = _ ∨ _
      by_cases e : j = j'
      · subst e
        exact ⟨i, .inr ⟨k, List.getElem?_set_self hil⟩⟩
      · have ha' : s.ops[j']? = some a := by rwa [List.getElem?_set_ne e] at ha
        refine wake_keep h (by simp) (by simp) (hI.wake j' a ha' hk' (hw.imp id ?_))
        rintro ⟨i', n, hw⟩
        rcases get_set hw with ⟨_, e⟩ | ⟨e, hw'⟩
        · cases e
        · exact ⟨i', n, hw'⟩
    · show s.ref = s.user + sumBy held (s.threads.set i _) + sumBy tokL (s.ops.set j _); omega
  | writeHr i j k o h ho =>
    obtain ⟨o1, t1, t2, t3⟩ := hI.T i _ h
    rw [ho] at t1; cases t1
    have hm : OpMono o { o with hr := k.hr } := ⟨rfl, (fun k' e => e), (fun k' e _ => by rw [t3] at e; cases e; rfl)⟩
    have f : Keep s { s with ops := s.ops.set j { o with hr := k.hr }, threads := s.threads.set i (.swap j) } := by
      refine ⟨⟨Mono.set ho hm, fun _ h => h⟩, rfl, rfl, id, ?_⟩
      intro j' a b ha hb hl
      rcases get_set hb with ⟨rfl, rfl⟩ | ⟨e, hb'⟩
      · rw [ho] at ha; cases ha; exact hl
      · rw [ha] at hb'; cases hb'; exact hl
    have hjl : j < s.ops.length := (List.getElem?_eq_some_iff.1 ho).1
    have hil : i < s.threads.length := (List.getElem?_eq_some_iff.1 h).1
    have s1 := sumBy_set tok _ _ (.swap j) _ h
    have s2 := sumBy_set held _ _ (.swap j) _ h
    have s3 := set_same (o' := { o with hr := k.hr }) ho
    simp only [tok, held, tokL] at s1 s2 s3
    have hone := hI.one
    have href := hI.ref
    refine ⟨T_any hI f rfl ⟨_, k, List.getElem?_set_self hjl, t2, t3, rfl⟩, ?_, ?_, ?_, ?_, hI.own, hI.own', ?_, ?_, hI.freed, hI.user⟩
    · show sumBy tok (s.threads.set i _) + sumBy tokL (s.ops.set j _) + s.resolves.length = 1; omega
    · intro j' a ha hl
      rcases get_set ha with ⟨rfl, rfl⟩ | ⟨e, ha'⟩
      · exact ⟨(hI.L j o ho hl).1.keep f, t2⟩
      · exact ⟨(hI.L j' a ha' hl).1.keep f, (hI.L j' a ha' hl).2⟩
    · refine op_set hI.op ⟨fun e => ?_, fun e => ?_, fun k' e => ?_⟩
      · rw [show o.null = true from e] at t2; cases t2
      · rw [show o.kind = none from e] at t3; cases t3
      · rw [show o.kind = some k' from e] at t3; cases t3; exact .inr rfl
    · intro e
      obtain ⟨a, b, c⟩ := hI.fin e
      exact ⟨a, b, by show FirstOk (s.ops.set j _) _ _ (s.ops.set j _).length; rw [List.length_set]; exact c.mono f.ops f.raced⟩
    · intro j' a ha hk' hw
      show ∃ i' : Nat, (s.threads.set i _)[i']? = _ ∨ _
      by_cases e : j = j'
      · subst e
        exact ⟨i, .inl (List.getElem?_set_self hil)⟩
      · have ha' : s.ops[j']? = some a := by rwa [List.getElem?_set_ne e] at ha
        refine wake_keep h (by simp) (by simp [e]) (hI.wake j' a ha' hk' (hw.imp id ?_))
        rintro ⟨i', n, hw⟩
        rcases get_set hw with ⟨_, e⟩ | ⟨e, hw'⟩
        · cases e
        · exact ⟨i', n, hw'⟩
    · show s.ref = s.user + sumBy held (s.threads.set i _) + sumBy tokL (s.ops.set j _); omega
  | swap i j o h ho hl =>
    obtain ⟨o1, k, t1, t2, t3, t4⟩ := hI.T i _ h
    rw [ho] at t1; cases t1
    have hm : OpMono o { o with listed := false } := op_mono_listed
    have hjl : j < s.ops.length := (List.getElem?_eq_some_iff.1 ho).1
    have hil : i < s.threads.length := (List.getElem?_eq_some_iff.1 h).1
    have hone := hI.one
    have href := hI.ref
    have f : Keep s { s with ops := s.ops.set j { o with listed := false }, threads := s.threads.set i (if o.listed then .invoke j else .idle) } := by
      refine ⟨⟨Mono.set ho hm, fun _ h => h⟩, rfl, rfl, id, ?_⟩
      intro j' a b ha hb hl
      rcases get_set hb with ⟨rfl, rfl⟩ | ⟨e, hb'⟩
      · rw [ho] at ha; cases ha; exact hl
      · rw [ha] at hb'; cases hb'; exact hl
    have s1 := sumBy_set tok _ _ (if o.listed then PC.invoke j else PC.idle) _ h
    have s2 := sumBy_set held _ _ (if o.listed then PC.invoke j else PC.idle) _ h
    have s3 := set_same (o' := { o with listed := false }) ho
    have e1 : tok (if o.listed then PC.invoke j else PC.idle) = tokL o := by unfold tokL; cases o.listed <;> rfl
    have e2 : held (if o.listed then PC.invoke j else PC.idle) = tokL o := by unfold tokL; cases o.listed <;> rfl
    rw [e1, show tok (.swap j) = 0 from rfl] at s1
    rw [e2, show held (.swap j) = 0 from rfl] at s2
    rw [show tokL { o with listed := false } = 0 from rfl] at s3
    refine ⟨T_any hI f rfl ?_, ?_, ?_, ?_, ?_, hI.own, hI.own', ?_, ?_, hI.freed, hI.user⟩
    · cases hls : o.listed with
      | false => trivial
      | true => exact ⟨(hI.L j o ho hls).1.keep (hls ▸ f), _, k, List.getElem?_set_self hjl, t2, t3, t4⟩
    · show sumBy tok (s.threads.set i _) + sumBy tokL (s.ops.set j _) + s.resolves.length = 1; omega
    · intro j' a ha hl
      rcases get_set ha with ⟨rfl, rfl⟩ | ⟨e, ha'⟩
      · cases hl
      · exact ⟨(hI.L j' a ha' hl).1.keep f, (hI.L j' a ha' hl).2⟩
    · exact op_set hI.op (hI.op o (List.mem_of_getElem? ho))
    · intro e
      obtain ⟨a, b, c⟩ := hI.fin e
      exact ⟨a, b, by show FirstOk (s.ops.set j _) _ _ (s.ops.set j _).length; rw [List.length_set]; exact c.mono f.ops f.raced⟩
    · intro j' a ha hk' hw
      have hw' : a.listed = true ∨ ∃ (i' : Nat) (n : Nat), s.threads[i']? = some (.addPush j' n) := by
        refine hw.imp id ?_
        rintro ⟨i', n, hw⟩
        rcases get_set hw with ⟨_, e⟩ | ⟨e, hw'⟩
        · split at e <;> cases e
        · exact ⟨i', n, hw'⟩
      by_cases e : j = j'
      · subst e
        have : a = { o with listed := false } := by
          have := List.getElem?_set_self (l := s.ops) (a := { o with listed := false }) hjl
          rw [show (s.ops.set j { o with listed := false })[j]? = some a from ha] at this
          cases this; rfl
        subst this
        rcases hw' with hw' | ⟨i', n, hw'⟩
        · cases hw'
        · obtain ⟨_, _, o2, g1, _, g3⟩ := hI.T i' _ hw'
          rw [ho] at g1; cases g1
          rw [hl] at g3; cases g3
      · have ha' : s.ops[j']? = some a := by rwa [List.getElem?_set_ne e] at ha
        exact wake_keep h (by simp [e]) (by simp) (hI.wake j' a ha' hk' hw')
    · show s.ref = s.user + sumBy held (s.threads.set i _) + sumBy tokL (s.ops.set j _); omega
  | invoke i j o h ho =>
    obtain ⟨hp, o1, k, t1, t2, t3, t4⟩ := hI.T i _ h
    rw [ho] at t1; cases t1
    refine inv_tok hI h rfl rfl rfl (.refl _) (fun _ h => h) (nolist h rfl) hI.op ?_ (by simp) rfl rfl rfl rfl rfl rfl
    exact ⟨hp, by simp, o, ho, .inr ⟨t2, k, t3, by simp [Op.status, t3], .inl t4⟩⟩
  | installNone i n h h0 => exact absurd h0 (hI.T i _ h).1
  | install i n h h0 =>
    obtain ⟨_, ⟨j, hp⟩, hc⟩ := hI.T i _ h
    refine inv_tok hI h rfl rfl rfl (.refl _) (fun _ h => h) (nolist h rfl) hI.op ?_ (by simp) rfl rfl rfl rfl ?_ rfl
    · rw [hp.index]; exact ⟨hp, hc⟩
    · simp only [held]; omega
  | addNull i j n o h ho hn =>
    obtain ⟨hp, hc⟩ := hI.T i _ h
    refine inv_tok hI h rfl rfl rfl (.refl _) (fun _ h => h) (nolist h rfl) hI.op ?_ (by simp) rfl rfl rfl rfl rfl rfl
    exact ⟨hp, by simp, o, ho, .inl ⟨hn, rfl⟩⟩
  | addLock i j n o h ho hn hl =>
    obtain ⟨hp, hc⟩ := hI.T i _ h
    have hjl : j < s.ops.length := (List.getElem?_eq_some_iff.1 ho).1
    have s3 := set_same (o' := { o with locked := true }) ho
    rw [show tokL { o with locked := true } = tokL o from rfl] at s3
    have h0 := nolist h rfl
    have hm : Mono s.ops (s.ops.set j { o with locked := true }) := Mono.set ho op_mono_locked
    refine inv_tok hI h rfl rfl rfl hm (fun _ h => h) ?_ (op_set hI.op (hI.op o (List.mem_of_getElem? ho))) ?_ (by simp) rfl rfl rfl rfl rfl rfl
    · show sumBy tokL (s.ops.set j _) = 0; omega
    · exact ⟨⟨by rw [hm.1]; exact hp.1, by rw [hm.1]; exact hp.2.1, hp.2.2.mono hm (fun _ h => h)⟩, hc, _, List.getElem?_set_self hjl, hn, rfl⟩
  | addOk i j n o h ho hst =>
    obtain ⟨hp, hc, ht⟩ := hI.T i _ h
    refine inv_tok hI h rfl rfl rfl (.refl _) (fun _ h => h) (nolist h rfl) hI.op ⟨hp, hc, ht⟩ ?_ rfl rfl rfl rfl rfl rfl
    intro j' n' e o' ho'
    cases e
    rw [show s.ops[j]? = some o' from ho'] at ho; cases ho
    exact status_started.1 hst
  | addRefuse i j n o h ho hst =>
    obtain ⟨hp, hc, o1, t1, t2, t3⟩ := hI.T i _ h
    rw [ho] at t1; cases t1
    have hjl : j < s.ops.length := (List.getElem?_eq_some_iff.1 ho).1
    have s3 := set_same (o' := { o with locked := false }) ho
    rw [show tokL { o with locked := false } = tokL o from rfl] at s3
    have h0 := nolist h rfl
    have hm : Mono s.ops (s.ops.set j { o with locked := false }) := Mono.set ho op_mono_locked
    have hra : ∀ x ∈ s.raced, x ∈ (if o.hr = E_PENDING then j :: s.raced else s.raced) := by
      intro x hx; split
      · exact List.mem_cons_of_mem _ hx
      · exact hx
    refine inv_tok hI h rfl rfl rfl hm hra ?_ (op_set hI.op (hI.op o (List.mem_of_getElem? ho))) ?_ (by simp) rfl rfl rfl rfl rfl rfl
    · show sumBy tokL (s.ops.set j _) = 0; omega
    · refine ⟨⟨by rw [hm.1]; exact hp.1, by rw [hm.1]; exact hp.2.1, hp.2.2.mono hm hra⟩, ?_⟩
      obtain ⟨k, hk⟩ := Option.ne_none_iff_exists'.1 (fun e => hst (status_started.2 e))
      ·
        refine ⟨{ o with locked := false }, k, List.getElem?_set_self hjl, t2, hk, ?_⟩
        rcases (hI.op o (List.mem_of_getElem? ho)).2.2 k hk with e | e
        · right; show j ∈ (if o.hr = E_PENDING then j :: s.raced else s.raced); rw [if_pos e]; simp
        · exact .inl e
  | addPush i j n o h ho =>
    obtain ⟨hp, hc, o1, t1, t2, t3⟩ := hI.T i _ h
    rw [ho] at t1; cases t1
    have hjl : j < s.ops.length := (List.getElem?_eq_some_iff.1 ho).1
    obtain ⟨n1, n2, n3⟩ := no_other hI h rfl
    have hm : Mono s.ops (s.ops.set j { o with locked := false, listed := true }) := Mono.set ho ⟨rfl, fun _ h => h, fun _ _ h => h⟩
    have s1 := sumBy_set tok _ _ (.unwind n) _ h
    have s2 := sumBy_set held _ _ (.unwind n) _ h
    have s3 := set_same (o' := { o with locked := false, listed := true }) ho
    have hone := hI.one
    have href := hI.ref
    have hlo : tokL o = 0 := by simp [tokL, n2 j o ho]
    rw [hlo, show tokL { o with locked := false, listed := true } = 1 from rfl] at s3
    simp only [tok, held] at s1 s2
    have hpos : Pos { s with ops := s.ops.set j { o with locked := false, listed := true }, threads := s.threads.set i (.unwind n) } j :=
      ⟨by rw [hm.1]; exact hp.1, by rw [hm.1]; exact hp.2.1, hp.2.2.mono hm (fun _ h => h)⟩
    refine ⟨T_token hI h rfl ⟨hm, fun _ h => h⟩ rfl trivial, ?_, ?_, op_set hI.op (hI.op o (List.mem_of_getElem? ho)), ?_, hI.own, hI.own', ?_, ?_, hI.freed, hI.user⟩
    · show sumBy tok (s.threads.set i _) + sumBy tokL (s.ops.set j _) + s.resolves.length = 1; omega
    · intro j' a ha hl
      rcases get_set ha with ⟨rfl, rfl⟩ | ⟨e, ha'⟩
      · exact ⟨hpos, t2⟩
      · rw [n2 j' a ha'] at hl; cases hl
    · rw [n3]; intro e; exact absurd rfl e
    · intro j' a ha hk' hw
      have : j' = j ∧ o.kind ≠ none := by
        rcases get_set ha with ⟨rfl, rfl⟩ | ⟨e, ha'⟩
        · exact ⟨rfl, hk'⟩
        · exfalso
          rcases hw with hw | ⟨i', m, hw⟩
          · rw [n2 j' a ha'] at hw; cases hw
          · rcases get_set hw with ⟨_, e⟩ | ⟨e, hw'⟩
            · cases e
            · have := n1 i' _ e hw'; cases this
      obtain ⟨rfl, hk⟩ := this
      exact wake_keep h (by simp) (by simp) (hI.wake j' o ho hk (.inr ⟨i, n, h⟩))
    · show s.ref = s.user + sumBy held (s.threads.set i _) + sumBy tokL (s.ops.set j _); omega
  | refused i j n o h ho =>
    obtain ⟨hp, o1, k, t1, t2, t3, t4⟩ := hI.T i _ h
    rw [ho] at t1; cases t1
    refine inv_tok hI h rfl rfl rfl (.refl _) (fun _ h => h) (nolist h rfl) hI.op ?_ (by simp) rfl rfl rfl rfl rfl rfl
    exact ⟨hp, by simp, o, ho, .inr ⟨t2, k, t3, by simp [Op.status, t3], t4⟩⟩
  | handlerOk i j n h =>
    obtain ⟨hp, hn, o, t1, t2⟩ := hI.T i _ h
    refine inv_tok hI h rfl rfl rfl (.refl _) (fun _ h => h) (nolist h rfl) hI.op ?_ (by simp) rfl rfl rfl rfl rfl rfl
    refine ⟨hn, hp.1, hp.2.1, hp.2.2.snoc t1 ?_ ?_⟩
    · rcases t2 with t | ⟨_, k, tk, _⟩
      · exact .inl t.1
      · exact .inr (by simp [tk])
    · rcases t2 with t | ⟨tn, k, tk, ts, _⟩
      · simp [code, t.1]
      · rw [code_kind tn tk]; exact (kind_ok k).2 ts.symm
  | handlerCancel i j n h =>
    obtain ⟨hp, hn, o, t1, t2⟩ := hI.T i _ h
    refine inv_tok hI h rfl rfl rfl (.refl _) (fun _ h => h) (nolist h rfl) hI.op ?_ (by simp) rfl rfl rfl rfl rfl rfl
    rcases t2 with t | ⟨tn, k, tk, ts, _⟩
    · cases t.2
    · refine ⟨hp, hn, o, t1, .inr (by simp [tk]), ?_, by decide, .inl ?_⟩
      · rw [code_kind tn tk, kind_cancel k ts.symm]; decide
      · rw [code_kind tn tk, kind_cancel k ts.symm]
  | handlerErr i j n st o h h1 h2 ho =>
    obtain ⟨hp, hn, o', t1, t2⟩ := hI.T i _ h
    rw [ho] at t1; cases t1
    refine inv_tok hI h rfl rfl rfl (.refl _) (fun _ h => h) (nolist h rfl) hI.op ?_ (by simp) rfl rfl rfl rfl rfl rfl
    rcases t2 with t | ⟨tn, k, tk, ts, tr⟩
    · exact absurd t.2 h1
    · have hk : k.hr ≠ S_OK := fun e => h1 (ts.trans ((kind_ok k).1 e))
      have hv : o.hr = E_PENDING ∨ o.hr = k.hr := (hI.op o (List.mem_of_getElem? ho)).2.2 k tk
      refine ⟨hp, hn, o, ho, .inr (by simp [tk]), by rw [code_kind tn tk]; exact hk, ?_, ?_⟩
      · rcases hv with e | e <;> rw [e]
        · decide
        · exact hk
      · rw [code_kind tn tk]
        rcases hv with e | e
        · rcases tr with tr | tr
          · exact .inl tr
          · exact .inr ⟨e, tr⟩
        · exact .inl e
  | cas i j e n h =>
    obtain ⟨hp, hn, o, t1, t2, t3, t4, t5⟩ := hI.T i _ h
    refine inv_tok hI h rfl rfl rfl (.refl _) (fun _ h => h) (nolist h rfl) hI.op ?_ (by simp) rfl rfl rfl rfl rfl rfl
    exact ⟨hn, hp.1, hp.2.1, hp.2.2.snoc_err t1 t2 t3 t4 t5⟩
  | dec i j n h =>
    obtain ⟨hn, hj, hp, hf⟩ := hI.T i _ h
    have hq : tok (if s.pend - 1 = 0 then PC.resolve n else PC.install n) = 1 := by split <;> rfl
    refine inv_tok hI h rfl hq rfl (.refl _) (fun _ h => h) (nolist h rfl) hI.op ?_ ?_ rfl rfl rfl rfl ?_ rfl
    · split
      · refine ⟨hn, by assumption, ?_⟩
        have : j + 1 = s.ops.length := by omega
        rw [← this]; exact hf
      · refine ⟨by assumption, ⟨j + 1, ?_, ?_, hf⟩, fun e => absurd e hn⟩
        · show j + 1 < s.ops.length; omega
        · show s.pend - 1 + (j + 1) = s.ops.length; omega
    · intro j' n' e; split at e <;> cases e
    · split <;> rfl
  | resolve i n h =>
    obtain ⟨hn, hp, hf⟩ := hI.T i _ h
    obtain ⟨n1, n2, n3⟩ := no_other hI h rfl
    have s1 := sumBy_set tok _ _ (.unwind n) _ h
    have s2 := sumBy_set held _ _ (.unwind n) _ h
    simp only [tok, held] at s1 s2
    have hone := hI.one
    have href := hI.ref
    rw [n3] at hone
    refine ⟨T_token hI h rfl ⟨.refl _, fun _ h => h⟩ rfl trivial, ?_, ?_, hI.op, ?_, ?_, ?_, ?_, ?_, hI.freed, hI.user⟩
    · show sumBy tok (s.threads.set i _) + sumBy tokL s.ops + (s.first :: s.resolves).length = 1
      rw [n3]; simp only [List.length_cons, List.length_nil] at *; omega
    · intro j o ho e; rw [n2 j o ho] at e; cases e
    · intro _; exact ⟨by show s.first :: s.resolves = _; rw [n3], hp, hf⟩
    · intro r e
      show s.first :: s.resolves = _
      rw [n3]
      have e' : (if s.own = none then some (some s.first) else s.own) = some (some r) := e
      split at e'
      · cases e'; rfl
      · have := hI.own r e'; rw [n3] at this; cases this
    · intro _
      show (if s.own = none then some (some s.first) else s.own) ≠ none
      split
      · simp
      · assumption
    · intro j o ho hk hw
      rcases hw with hw | ⟨i', m, hw⟩
      · rw [n2 j o ho] at hw; cases hw
      · rcases get_set hw with ⟨_, e⟩ | ⟨e, hw'⟩
        · cases e
        · have := n1 i' _ e hw'; cases this
    · show s.ref = s.user + sumBy held (s.threads.set i _) + sumBy tokL s.ops; omega
  | unwind i n h =>
    have s1 := sumBy_set tok _ _ (.unwind n) _ h
    have s2 := sumBy_set held _ _ (.unwind n) _ h
    simp only [tok, held] at s1 s2
    have hone := hI.one
    have href := hI.ref
    have hfr := hI.freed
    have hle := le_sumBy held _ _ _ h
    simp only [held] at hle
    have k : Keep s { s with ref := (rel s.ref s.freed).1, freed := (rel s.ref s.freed).2, threads := s.threads.set i (.unwind n) } :=
      ⟨⟨.refl _, fun _ h => h⟩, rfl, rfl, id, fun j o o' h1 h2 hl => by rw [h1] at h2; cases h2; exact hl⟩
    refine ⟨T_any hI k rfl trivial, ?_, fun j o ho hl => ⟨(hI.L j o ho hl).1.keep k, (hI.L j o ho hl).2⟩, hI.op, hI.fin, hI.own, hI.own', ?_, ?_, ?_, hI.user⟩
    · show sumBy tok (s.threads.set i _) + sumBy tokL s.ops + s.resolves.length = 1; omega
    · intro j o ho hk hw
      refine wake_keep h (by simp) (by simp) (hI.wake j o ho hk (hw.imp id ?_))
      rintro ⟨i', n', hw⟩
      rcases get_set hw with ⟨_, e⟩ | ⟨e, hw'⟩
      · cases e
      · exact ⟨i', n', hw'⟩
    · show s.ref - 1 = s.user + sumBy held (s.threads.set i _) + sumBy tokL s.ops; omega
    · show (if s.ref = 1 then s.freed + 1 else s.freed) = if s.ref - 1 = 0 then 1 else 0
      rw [if_neg (by omega)] at hfr
      by_cases e : s.ref = 1
      · rw [if_pos e, if_pos (by omega)]; omega
      · rw [if_neg e, if_neg (by omega)]; omega
  | unwindEnd i h =>
    have s1 := sumBy_set tok _ _ .idle _ h
    have s2 := sumBy_set held _ _ .idle _ h
    simp only [tok, held] at s1 s2
    have hone := hI.one
    have href := hI.ref
    refine ⟨?_, ?_, ?_, hI.op, hI.fin, hI.own, hI.own', ?_, ?_, hI.freed, ?_⟩
    · intro i' x hx
      rcases get_set hx with ⟨rfl, rfl⟩ | ⟨e, hx'⟩
      · trivial
      · have hT := hI.T i' x hx'
        have hc : ∀ n, HC s i' n → HC { s with creating := if i = 0 then false else s.creating, threads := s.threads.set i .idle } i' n := by
          intro n hh e0
          obtain ⟨a, b⟩ := hh e0
          refine ⟨a, ?_⟩
          show (if i = 0 then false else s.creating) = true
          rw [if_neg (by omega)]; exact b
        cases x with
        | install => exact ⟨hT.1, hT.2.1, hc _ hT.2.2⟩
        | add => exact ⟨hT.1, hc _ hT.2⟩
        | addLocked => exact ⟨hT.1, hc _ hT.2.1, hT.2.2⟩
        | addPush => exact ⟨hT.1, hc _ hT.2.1, hT.2.2⟩
        | _ => exact hT
    · show sumBy tok (s.threads.set i _) + sumBy tokL s.ops + s.resolves.length = 1; omega
    · exact hI.L
    · intro j o ho hk hw
      refine wake_keep h (by simp) (by simp) (hI.wake j o ho hk (hw.imp id ?_))
      rintro ⟨i', n', hw⟩
      rcases get_set hw with ⟨_, e⟩ | ⟨e, hw'⟩
      · cases e
      · exact ⟨i', n', hw'⟩
    · show s.ref = s.user + sumBy held (s.threads.set i _) + sumBy tokL s.ops; omega
    · intro e
      have e' : (if i = 0 then false else s.creating) = true := e
      split at e'
      · cases e'
      · exact hI.user e'
  | cancel hu hc h0 =>
    refine ⟨?_, hI.one, hI.L, hI.op, hI.fin, ?_, ?_, hI.wake, hI.ref, hI.freed, hI.user⟩
    · exact fun i x hx => T_keep (hI.T i x hx) ⟨⟨.refl _, fun _ h => h⟩, rfl, rfl, id, fun j o o' h1 h2 hl => by rw [h1] at h2; cases h2; exact hl⟩
    · intro r e; cases e
    · intro _; simp
  | copy hu hc =>
    have href := hI.ref
    have hfr := hI.freed
    refine ⟨?_, hI.one, hI.L, hI.op, hI.fin, hI.own, hI.own', hI.wake, ?_, ?_, ?_⟩
    · exact fun i x hx => T_keep (hI.T i x hx) ⟨⟨.refl _, fun _ h => h⟩, rfl, rfl, id, fun j o o' h1 h2 hl => by rw [h1] at h2; cases h2; exact hl⟩
    · show s.ref + 1 = s.user + 1 + sumBy held s.threads + sumBy tokL s.ops; omega
    · show s.freed = if s.ref + 1 = 0 then 1 else 0
      rw [if_neg (by omega)] at hfr ⊢; exact hfr
    · intro e; show 1 ≤ s.user + 1; omega
  | drop hu hc =>
    have href := hI.ref
    have hfr := hI.freed
    refine ⟨?_, hI.one, hI.L, hI.op, hI.fin, hI.own, hI.own', hI.wake, ?_, ?_, ?_⟩
    · exact fun i x hx => T_keep (hI.T i x hx) ⟨⟨.refl _, fun _ h => h⟩, rfl, rfl, id, fun j o o' h1 h2 hl => by rw [h1] at h2; cases h2; exact hl⟩
    · show s.ref - 1 = s.user - 1 + sumBy held s.threads + sumBy tokL s.ops; omega
    · show (if s.ref = 1 then s.freed + 1 else s.freed) = if s.ref - 1 = 0 then 1 else 0
      rw [if_neg (by omega)] at hfr
      by_cases e : s.ref = 1
      · rw [if_pos e, if_pos (by omega)]; omega
      · rw [if_neg e, if_neg (by omega)]; omega
    · intro e; rw [show s.creating = true from e] at hc; cases hc

theorem inv_reach {s} (h : Reach s) : Inv s := by
  induction h with
  | init s h => exact inv_init h
  | step s s' _ hs ih => exact inv_step ih hs

end Verif.When.All
