import Verif.Treiber.Model
/-!
# C33 – the lock-free list is a linearizable stack
-/
namespace Verif.Treiber

/-- **Specification**: replay the events on an ordinary stack; `none` if some result is not the one the stack gives. -/
def replay : List Nat → List Ev → Option (List Nat)
  | s, [] => some s
  | s, .push seg :: es => replay (seg ++ s) es
  | x :: s, .pop e :: es => if x = e then replay s es else none
  | [], .pop _ :: _ => none
  | [], .popNull :: es => replay [] es
  | _ :: _, .popNull :: _ => none
  | s, .flush l :: es => if l = s then replay [] es else none

theorem replay_append (es es' : List Ev) (s : List Nat) : replay s (es ++ es') = (replay s es).bind fun s' => replay s' es' := by
  induction es generalizing s with
  | nil => rfl
  | cons e es ih =>
    cases e with
    | push seg => simp only [List.cons_append, replay]; exact ih _
    | pop x =>
      cases s with
      | nil => simp [replay]
      | cons y s => simp only [List.cons_append, replay]; split; · exact ih _
                    · rfl
    | popNull =>
      cases s with
      | nil => simp only [List.cons_append, replay]; exact ih _
      | cons y s => simp [replay]
    | flush l => simp only [List.cons_append, replay]; split; · exact ih _
                 · rfl

/-- a chain that ends at pointer `h` -/
def To (next : Nat → Option Nat) : Option Nat → List Nat → Option Nat → Prop
  | p, [], h => p = h
  | p, e :: l, h => p = some e ∧ To next (next e) l h

theorem to_walk {next : Nat → Option Nat} {p h : Option Nat} {l l' : List Nat} (h1 : To next p l h) (h2 : Walk next h l') : Walk next p (l ++ l') := by
  induction l generalizing p with
  | nil => simp only [To] at h1; subst h1; exact h2
  | cons e l ih => exact ⟨h1.1, ih h1.2⟩

theorem walk_congr {next next' : Nat → Option Nat} {p : Option Nat} {l : List Nat} (h : Walk next p l) (he : ∀ e ∈ l, next' e = next e) : Walk next' p l := by
  induction l generalizing p with
  | nil => exact h
  | cons e l ih =>
    refine ⟨h.1, ?_⟩
    rw [he e (by simp)]
    exact ih h.2 fun x hx => he x (by simp [hx])

theorem to_congr {next next' : Nat → Option Nat} {p h0 : Option Nat} {l : List Nat} (h : To next p l h0) (he : ∀ e ∈ l, next' e = next e) : To next' p l h0 := by
  induction l generalizing p with
  | nil => exact h
  | cons e l ih =>
    refine ⟨h.1, ?_⟩
    rw [he e (by simp)]
    exact ih h.2 fun x hx => he x (by simp [hx])

theorem linked_congr {next next' : Nat → Option Nat} {l : List Nat} (h : Linked next l) (he : ∀ e ∈ l, next' e = next e) : Linked next' l := by
  induction l with
  | nil => trivial
  | cons a l ih =>
    cases l with
    | nil => trivial
    | cons b l => exact ⟨by rw [he a (by simp)]; exact h.1, ih h.2 fun x hx => he x (List.mem_cons_of_mem _ hx)⟩

theorem linked_to {next : Nat → Option Nat} {seg : List Nat} {e : Nat} (h : Linked next seg) (hn : seg.Nodup) (hl : seg.getLast? = some e) (v : Option Nat) :
    To (upd next e v) seg.head? seg v ∧ seg ≠ [] := by
  induction seg with
  | nil => simp at hl
  | cons a l ih =>
    refine ⟨⟨rfl, ?_⟩, by simp⟩
    cases l with
    | nil =>
      simp at hl
      subst hl
      simp [To, upd]
    | cons b l =>
      have hl' : (b :: l).getLast? = some e := by rw [List.getLast?_cons_cons] at hl; exact hl
      have hae : a ≠ e := by
        intro heq
        have := List.mem_of_getLast? hl'
        rw [List.nodup_cons] at hn
        exact hn.1 (heq ▸ this)
      have h2 := (ih h.2 (List.nodup_cons.1 hn).2 hl').1
      have : upd next e v a = some b := by simp only [upd]; rw [if_neg hae]; exact h.1
      rw [this]
      exact h2

def PInv (s : St) (t : Nat) : PPC → Prop
  | .idle => True
  | .store seg _ => seg ≠ [] ∧ seg.Nodup ∧ (∀ e ∈ seg, s.own e = .pusher t) ∧ Linked s.next seg
  | .cas seg h => seg ≠ [] ∧ seg.Nodup ∧ (∀ e ∈ seg, s.own e = .pusher t) ∧ To s.next seg.head? seg h ∧ Linked s.next seg

def CInv (s : St) : CPC → Prop
  | .idle => True
  | .read p => s.own p = .list
  | .cas p nx => s.own p = .list ∧ s.next p = nx
  | .clear p => s.own p = .consumer

structure Inv (s : St) (L : List Nat) : Prop where
  spec : replay [] s.log = some L
  walk : Walk s.next s.head L
  nodup : L.Nodup
  own : ∀ e, s.own e = .list ↔ e ∈ L
  push : ∀ t, PInv s t (s.push t)
  cons : CInv s s.cons

theorem PInv.frame {s s' : St} {t : Nat} {pc : PPC} (h : PInv s t pc) (ho : ∀ e, s.own e = .pusher t → s'.own e = .pusher t)
    (hn : ∀ e, s.own e = .pusher t → s'.next e = s.next e) : PInv s' t pc := by
  cases pc with
  | idle => trivial
  | store seg hh =>
    obtain ⟨h1, h2, h3, h4⟩ := h
    exact ⟨h1, h2, fun e he => ho e (h3 e he), linked_congr h4 fun e he => hn e (h3 e he)⟩
  | cas seg hh =>
    obtain ⟨h1, h2, h3, h4, h5⟩ := h
    exact ⟨h1, h2, fun e he => ho e (h3 e he), to_congr h4 fun e he => hn e (h3 e he), linked_congr h5 fun e he => hn e (h3 e he)⟩

theorem CInv.frame {s s' : St} {pc : CPC} (h : CInv s pc) (ho : ∀ e, s.own e = .list → s'.own e = .list) (ho' : ∀ e, s.own e = .consumer → s'.own e = .consumer)
    (hn : ∀ e, s.own e = .list → s'.next e = s.next e) : CInv s' pc := by
  cases pc with
  | idle => trivial
  | read p => exact ho p h
  | cas p nx => exact ⟨ho p h.1, (hn p h.1).trans h.2⟩
  | clear p => exact ho' p h

theorem step_inv {s s' : St} {L : List Nat} (h : Inv s L) (hs : Step s s') : ∃ L', Inv s' L' := by
  have walkne : ∀ (v : Option Nat) e, s.own e ≠ .list → Walk (upd s.next e v) s.head L := fun v e hne =>
    walk_congr h.walk fun x hx => by
      simp only [upd]; rw [if_neg]; rintro rfl; exact hne ((h.own x).2 hx)
  have nextne : ∀ (v : Option Nat) e x, x ≠ e → upd s.next e v x = s.next x := fun v e x hx => by simp [upd, hx]
  have ownne : ∀ (o : Owner) e x, x ≠ e → upd s.own e o x = s.own x := fun v e x hx => by simp [upd, hx]
  cases hs with
  | alloc e v he =>
    refine ⟨L, h.spec, walkne v e (by rw [he]; simp), h.nodup, ?_, ?_, ?_⟩
    · intro x
      by_cases hx : x = e
      · subst hx
        have := h.own x
        rw [he] at this
        simp [upd]
        simpa using this
      · simp only [upd, hx, if_false]; exact h.own x
    · intro t
      refine (h.push t).frame (fun x hx => ?_) (fun x hx => ?_)
      · have : x ≠ e := by rintro rfl; rw [he] at hx; simp at hx
        exact (ownne _ _ _ this).trans hx
      · have : x ≠ e := by rintro rfl; rw [he] at hx; simp at hx
        exact nextne _ _ _ this
    · refine h.cons.frame (fun x hx => ?_) (fun x hx => ?_) (fun x hx => ?_)
      all_goals have hne : x ≠ e := by rintro rfl; rw [he] at hx; simp at hx
      · exact (ownne _ _ _ hne).trans hx
      · exact (ownne _ _ _ hne).trans hx
      · exact nextne _ _ _ hne
  | free e he =>
    refine ⟨L, h.spec, h.walk, h.nodup, ?_, ?_, ?_⟩
    · intro x
      by_cases hx : x = e
      · subst hx
        have := h.own x
        rw [he] at this
        simp [upd]
        simpa using this
      · simp only [upd, hx, if_false]; exact h.own x
    · intro t
      refine (h.push t).frame (fun x hx => ?_) (fun x hx => rfl)
      have : x ≠ e := by rintro rfl; rw [he] at hx; simp at hx
      exact (ownne _ _ _ this).trans hx
    · refine h.cons.frame (fun x hx => ?_) (fun x hx => ?_) (fun x hx => rfl)
      all_goals have hne : x ≠ e := by rintro rfl; rw [he] at hx; simp at hx
      · exact (ownne _ _ _ hne).trans hx
      · exact (ownne _ _ _ hne).trans hx
  | write e v he =>
    refine ⟨L, h.spec, walkne v e (by rw [he]; simp), h.nodup, h.own, ?_, ?_⟩
    · intro t
      refine (h.push t).frame (fun x hx => hx) (fun x hx => ?_)
      have : x ≠ e := by rintro rfl; rw [he] at hx; simp at hx
      exact nextne _ _ _ this
    · refine h.cons.frame (fun x hx => hx) (fun x hx => hx) (fun x hx => ?_)
      have hne : x ≠ e := by rintro rfl; rw [he] at hx; simp at hx
      exact nextne _ _ _ hne
  | start t seg hi hne hnd hout hlk =>
    have gne : ∀ x, s.own x ≠ .out → give s.own seg (.pusher t) x = s.own x := by
      intro x hx
      simp only [give]
      rw [if_neg fun hc => hx (hout x hc)]
    refine ⟨L, h.spec, h.walk, h.nodup, ?_, ?_, ?_⟩
    · intro x
      by_cases hx : s.own x = .out
      · have h1 := h.own x
        rw [hx] at h1
        simp only [reduceCtorEq, false_iff] at h1
        simp only [give]
        split
        · simp [h1]
        · rw [hx]; simp [h1]
      · show give s.own seg (.pusher t) x = _ ↔ _
        rw [gne x hx]; exact h.own x
    · intro t'
      by_cases ht : t' = t
      · subst ht
        simp only [upd, if_true, PInv]
        exact ⟨hne, hnd, fun e he => by simp [give, he], hlk⟩
      · simp only [upd, ht, if_false]
        refine (h.push t').frame (fun x hx => ?_) (fun x hx => rfl)
        exact (gne x (by rw [hx]; simp)).trans hx
    · refine h.cons.frame (fun x hx => ?_) (fun x hx => ?_) (fun x hx => rfl)
      · exact (gne x (by rw [hx]; simp)).trans hx
      · exact (gne x (by rw [hx]; simp)).trans hx
  | store t seg hh e hp hl =>
    have hpi := h.push t
    rw [hp] at hpi
    obtain ⟨h1, h2, h3, h4⟩ := hpi
    have he := h3 e (List.mem_of_getLast? hl)
    refine ⟨L, h.spec, walkne hh e (by rw [he]; simp), h.nodup, h.own, ?_, ?_⟩
    · intro t'
      by_cases ht : t' = t
      · subst ht
        simp only [upd, if_true, PInv]
        have hto := (linked_to h4 h2 hl hh).1
        refine ⟨h1, h2, h3, hto, ?_⟩
        clear hto h1 h3 hp
        induction seg with
        | nil => trivial
        | cons a l ih =>
          cases l with
          | nil => trivial
          | cons b l =>
            have hl' : (b :: l).getLast? = some e := by rw [List.getLast?_cons_cons] at hl; exact hl
            have hae : a ≠ e := by
              intro heq
              exact (List.nodup_cons.1 h2).1 (heq ▸ List.mem_of_getLast? hl')
            refine ⟨?_, ih hl' (List.nodup_cons.1 h2).2 h4.2⟩
            show (if a = e then hh else s.next a) = some b
            rw [if_neg hae]; exact h4.1
      · show PInv _ t' (upd s.push t (.cas seg hh) t')
        simp only [upd, ht, if_false]
        refine (h.push t').frame (fun x hx => hx) (fun x hx => ?_)
        have : x ≠ e := by rintro rfl; rw [he] at hx; simp at hx; exact ht hx.symm
        exact nextne _ _ _ this
    · refine h.cons.frame (fun x hx => hx) (fun x hx => hx) (fun x hx => ?_)
      have hne : x ≠ e := by rintro rfl; rw [he] at hx; simp at hx
      exact nextne _ _ _ hne
  | casOk t seg hh hp hhd =>
    have hpi := h.push t
    rw [hp] at hpi
    obtain ⟨h1, h2, h3, h4, _⟩ := hpi
    subst hhd
    have gne : ∀ x, s.own x ≠ .pusher t → give s.own seg .list x = s.own x := by
      intro x hx
      simp only [give]
      rw [if_neg fun hc => hx (h3 x hc)]
    refine ⟨seg ++ L, ?_, to_walk h4 h.walk, ?_, ?_, ?_, ?_⟩
    · rw [replay_append, h.spec]; rfl
    · rw [List.nodup_append]
      refine ⟨h2, h.nodup, ?_⟩
      rintro a ha b hb rfl
      have := h3 a ha
      rw [(h.own a).2 hb] at this
      simp at this
    · intro x
      simp only [give, List.mem_append]
      by_cases hx : x ∈ seg
      · simp [hx]
      · simp only [hx, if_false, false_or]; exact h.own x
    · intro t'
      by_cases ht : t' = t
      · subst ht; simp [upd, PInv]
      · simp only [upd, ht, if_false]
        refine (h.push t').frame (fun x hx => ?_) (fun x hx => rfl)
        exact (gne x (by rw [hx]; simp [ht])).trans hx
    · refine h.cons.frame (fun x hx => ?_) (fun x hx => ?_) (fun x hx => rfl)
      · exact (gne x (by rw [hx]; simp)).trans hx
      · exact (gne x (by rw [hx]; simp)).trans hx
  | casFail t seg hh hp hhd =>
    have hpi := h.push t
    rw [hp] at hpi
    obtain ⟨h1, h2, h3, _, h4⟩ := hpi
    refine ⟨L, h.spec, h.walk, h.nodup, h.own, ?_, h.cons⟩
    intro t'
    by_cases ht : t' = t
    · subst ht; simp only [upd, if_true, PInv]; exact ⟨h1, h2, h3, h4⟩
    · simp only [upd, ht, if_false]
      exact (h.push t').frame (fun x hx => hx) (fun x hx => rfl)
  | popNull hc hh =>
    have hL : L = [] := by
      have := h.walk
      rw [hh] at this
      cases L with
      | nil => rfl
      | cons a l => simp [Walk] at this
    subst hL
    refine ⟨[], ?_, h.walk, h.nodup, h.own, ?_, h.cons⟩
    · rw [replay_append, h.spec]; rfl
    · exact fun t => (h.push t).frame (fun x hx => hx) (fun x hx => rfl)
  | popRead p hc hh =>
    refine ⟨L, h.spec, h.walk, h.nodup, h.own, fun t => (h.push t).frame (fun x hx => hx) (fun x hx => rfl), ?_⟩
    have := h.walk
    rw [hh] at this
    cases L with
    | nil => simp [Walk] at this
    | cons a l =>
      have : p = a := by simpa using this.1
      subst this
      exact (h.own p).2 (by simp)
  | popNext p hc =>
    refine ⟨L, h.spec, h.walk, h.nodup, h.own, fun t => (h.push t).frame (fun x hx => hx) (fun x hx => rfl), ?_⟩
    have := h.cons
    rw [hc] at this
    exact ⟨this, rfl⟩
  | popOk p nx hc hh =>
    have hci := h.cons
    rw [hc] at hci
    have hw := h.walk
    rw [hh] at hw
    cases L with
    | nil => simp [Walk] at hw
    | cons a l =>
      have ha : p = a := by simpa using hw.1
      subst ha
      have hnd := List.nodup_cons.1 h.nodup
      refine ⟨l, ?_, ?_, hnd.2, ?_, ?_, ?_⟩
      · rw [replay_append, h.spec]; simp [replay]
      · have := hw.2
        rw [hci.2] at this
        exact this
      · intro x
        by_cases hx : x = p
        · subst hx; simp [upd, hnd.1]
        · simp only [upd, hx, if_false]
          rw [h.own x]; simp [hx]
      · intro t
        refine (h.push t).frame (fun x hx => ?_) (fun x hx => rfl)
        have : x ≠ p := by rintro rfl; rw [hci.1] at hx; simp at hx
        exact (ownne _ _ _ this).trans hx
      · simp [CInv, upd]
  | popFail p nx q hc hh hq =>
    refine ⟨L, h.spec, h.walk, h.nodup, h.own, fun t => (h.push t).frame (fun x hx => hx) (fun x hx => rfl), ?_⟩
    have := h.walk
    rw [hh] at this
    cases L with
    | nil => simp [Walk] at this
    | cons a l =>
      have : q = a := by simpa using this.1
      subst this
      exact (h.own q).2 (by simp)
  | popFailNull p nx hc hh =>
    have hL : L = [] := by
      have := h.walk
      rw [hh] at this
      cases L with
      | nil => rfl
      | cons a l => simp [Walk] at this
    subst hL
    refine ⟨[], ?_, h.walk, h.nodup, h.own, fun t => (h.push t).frame (fun x hx => hx) (fun x hx => rfl), trivial⟩
    rw [replay_append, h.spec]; rfl
  | clear p hc =>
    have hci := h.cons
    rw [hc] at hci
    simp only [CInv] at hci
    refine ⟨L, h.spec, walkne none p (by rw [hci]; simp), h.nodup, ?_, ?_, trivial⟩
    · intro x
      by_cases hx : x = p
      · subst hx
        have := h.own x
        rw [hci] at this
        simp [upd]
        simpa using this
      · simp only [upd, hx, if_false]; exact h.own x
    · intro t
      refine (h.push t).frame (fun x hx => ?_) (fun x hx => ?_)
      all_goals have hne : x ≠ p := by rintro rfl; rw [hci] at hx; simp at hx
      · exact (ownne _ _ _ hne).trans hx
      · exact nextne _ _ _ hne
  | flush l hc hw =>
    have hl : l = L := by
      have h0 := h.walk
      clear hc
      generalize s.head = hd at hw h0
      clear h walkne nextne ownne
      induction l generalizing hd L with
      | nil =>
        cases L with
        | nil => rfl
        | cons a L => simp only [Walk] at hw; subst hw; simp [Walk] at h0
      | cons e l ih =>
        cases L with
        | nil => simp only [Walk] at h0; subst h0; simp [Walk] at hw
        | cons a L =>
          have : e = a := by have := hw.1.symm.trans h0.1; simpa using this
          subst this
          rw [ih _ hw.2 h0.2]
    subst hl
    refine ⟨[], ?_, rfl, List.nodup_nil, ?_, ?_, ?_⟩
    · rw [replay_append, h.spec]; simp [replay]
    · intro x
      simp only [give, List.not_mem_nil, iff_false]
      split
      · simp
      · rename_i hx; rw [h.own x]; exact hx
    · intro t
      refine (h.push t).frame (fun x hx => ?_) (fun x hx => rfl)
      show give s.own l .out x = _
      simp only [give]
      rw [if_neg fun hcc => by rw [(h.own x).2 hcc] at hx; simp at hx]
      exact hx
    · show CInv _ s.cons
      rw [hc]; trivial

theorem reach_inv {s : St} (h : Reach s) : ∃ L, Inv s L := by
  induction h with
  | init => exact ⟨[], rfl, rfl, List.nodup_nil, by simp [init], by simp [init, PInv], trivial⟩
  | step _ hs ih => obtain ⟨L, hL⟩ := ih; exact step_inv hL hs

/-- **C33 (linearizability).** Under every interleaving the results obtained by the consumer are those of an ordinary stack to which the segments were pushed
in the order of their successful compare-exchanges; the entries in memory reachable from the head are exactly the contents of that stack. -/
theorem C33_linearizable {s : St} (h : Reach s) : ∃ L, replay [] s.log = some L ∧ Walk s.next s.head L ∧ L.Nodup := by
  obtain ⟨L, hL⟩ := reach_inv h
  exact ⟨L, hL.spec, hL.walk, hL.nodup⟩

/-- entries pushed / obtained according to the log -/
def pushedOf : List Ev → List Nat
  | [] => []
  | .push seg :: es => seg ++ pushedOf es
  | _ :: es => pushedOf es
def obtainedOf : List Ev → List Nat
  | [] => []
  | .pop e :: es => e :: obtainedOf es
  | .flush l :: es => l ++ obtainedOf es
  | _ :: es => obtainedOf es

theorem replay_count {es : List Ev} {s s' : List Nat} (h : replay s es = some s') (e : Nat) :
    (pushedOf es).count e + s.count e = (obtainedOf es).count e + s'.count e := by
  induction es generalizing s with
  | nil => simp only [replay, Option.some.injEq] at h; subst h; simp [pushedOf, obtainedOf]
  | cons ev es ih =>
    cases ev with
    | push seg =>
      have := ih h
      simp only [pushedOf, obtainedOf, List.count_append] at this ⊢
      omega
    | pop x =>
      cases s with
      | nil => simp [replay] at h
      | cons y s =>
        simp only [replay] at h
        split at h
        · rename_i hxy
          subst hxy
          have := ih h
          simp only [pushedOf, obtainedOf, List.count_cons] at this ⊢
          omega
        · simp at h
    | popNull =>
      cases s with
      | nil => exact ih h
      | cons y s => simp [replay] at h
    | flush l =>
      simp only [replay] at h
      split at h
      · rename_i hl
        subst hl
        have := ih h
        simp only [pushedOf, obtainedOf, List.count_append, List.count_nil] at this ⊢
        omega
      · simp at h

/-- **C33 (nothing lost, nothing duplicated).** Every push of an entry is matched by exactly one hand-out, except for the entries still in the list, which are
the ones reachable from the head, each once. -/
theorem C33_conservation {s : St} (h : Reach s) : ∃ L, Walk s.next s.head L ∧ L.Nodup ∧
    ∀ e, (pushedOf s.log).count e = (obtainedOf s.log).count e + (if e ∈ L then 1 else 0) := by
  obtain ⟨L, hL⟩ := reach_inv h
  refine ⟨L, hL.walk, hL.nodup, fun e => ?_⟩
  have := replay_count hL.spec e
  rw [List.count_nil, hL.nodup.count] at this
  omega

/-- **C33 (memory safety).** When the consumer is about to read `_pEntry->pNext` or to compare-exchange, the entry is in the list; when it clears `pNext`, the
entry is its own; when a pusher stores, the entry is its own. -/
theorem C33_safe {s : St} (h : Reach s) :
    (∀ p, s.cons = .read p → s.own p = .list) ∧ (∀ p nx, s.cons = .cas p nx → s.own p = .list) ∧ (∀ p, s.cons = .clear p → s.own p = .consumer) ∧
    (∀ t seg hd e, s.push t = .store seg hd → seg.getLast? = some e → s.own e = .pusher t) := by
  obtain ⟨L, hL⟩ := reach_inv h
  have hc := hL.cons
  refine ⟨fun p hp => ?_, fun p nx hp => ?_, fun p hp => ?_, fun t seg hd e hp he => ?_⟩
  · rw [hp] at hc; exact hc
  · rw [hp] at hc; exact hc.1
  · rw [hp] at hc; exact hc
  · have := hL.push t
    rw [hp] at this
    exact this.2.2.1 e (List.mem_of_getLast? he)

/-- `Flush` is always possible: the walk from the head ends. -/
theorem C33_flush_enabled {s : St} (h : Reach s) : ∃ l, Walk s.next s.head l := by
  obtain ⟨L, hL⟩ := reach_inv h
  exact ⟨L, hL.walk⟩

/-- two pushers race, the consumer pops one entry, it is pushed again and everything is flushed -/
theorem reach_ex : ∃ s, Reach s ∧ s.log = [.push [1], .push [2], .pop 2, .push [2], .flush [2, 1]] := by
  have a1 := Reach.step .init (.alloc 1 none rfl)
  have a2 := Reach.step a1 (.alloc 2 (some 7) rfl)
  have a3 := Reach.step a2 (.start 0 [1] rfl (by simp) (by simp) (by simp [upd]) trivial)
  have a4 := Reach.step a3 (.start 1 [2] rfl (by simp) (by simp) (by simp [upd, give]) trivial)
  have a5 := Reach.step a4 (.store 0 [1] none 1 rfl rfl)
  have a6 := Reach.step a5 (.store 1 [2] none 2 rfl rfl)
  have a7 := Reach.step a6 (.casOk 0 [1] none rfl rfl)
  have a8 := Reach.step a7 (.casFail 1 [2] none rfl (by simp))
  have a9 := Reach.step a8 (.store 1 [2] (some 1) 2 rfl rfl)
  have a10 := Reach.step a9 (.casOk 1 [2] (some 1) rfl rfl)
  have a11 := Reach.step a10 (.popRead 2 rfl rfl)
  have a12 := Reach.step a11 (.popNext 2 rfl)
  have a13 := Reach.step a12 (.popOk 2 _ rfl rfl)
  have a14 := Reach.step a13 (.clear 2 rfl)
  have a15 := Reach.step a14 (.start 5 [2] rfl (by simp) (by simp) (by simp [upd]) trivial)
  have a16 := Reach.step a15 (.store 5 [2] (some 1) 2 rfl rfl)
  have a17 := Reach.step a16 (.casOk 5 [2] (some 1) rfl rfl)
  exact ⟨_, Reach.step a17 (.flush [2, 1] rfl ⟨rfl, rfl, rfl⟩), rfl⟩

#print axioms C33_linearizable
#print axioms C33_conservation
#print axioms C33_safe
#print axioms reach_ex

end Verif.Treiber
