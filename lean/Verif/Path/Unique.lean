import Verif.Path.Props

/-! The specification `Root` determines the root. -/

namespace Verif.Path
open Verif.View

theorem letter_not_sep {win c} (h : Letter c) : ¬ Sep win c := by
  intro hs
  rw [← alpha_iff] at h
  unfold alpha at h
  rw [Bool.or_eq_true, decide_eq_true_iff, decide_eq_true_iff] at h
  rcases hs with rfl | ⟨_, rfl⟩ <;> simp [ch] at h

theorem upto_plain {win a} (h : Plain win a) (k s rest) (hs : Sep win s) : upto win (k + 1) (a ++ s :: rest) = a ++ s :: upto win k rest := by
  induction a with
  | nil => simp [upto, sep_iff.2 hs]
  | cons c a ih =>
    have hc : sep win c = false := by
      cases e : sep win c with
      | false => rfl
      | true => exact absurd (sep_iff.1 e) (h c (by simp))
    have e : upto win (k + 1) (c :: (a ++ s :: rest)) = c :: upto win (k + 1) (a ++ s :: rest) := by
      unfold upto; rw [hc]; cases a <;> rfl
    rw [List.cons_append, e, ih (fun x hx => h x (List.mem_cons_of_mem _ hx))]; rfl

theorem upto_all {win u} (h : Plain win u) (k) : upto win (k + 1) u = u := by
  rcases upto_succ win k u with ⟨_, h2⟩ | ⟨a, s, rest, _, hs, e, _⟩
  · exact h2
  · exact absurd hs (h s (by rw [e]; simp))

theorem Share.eq {win u x} (h : Share win u x) : x = upto win 2 u := by
  rcases h with ⟨a, s, b, s', rest, h1, h2, h3, h4, rfl, rfl⟩ | ⟨rfl, h | ⟨a, s, b, h1, h2, h3, rfl⟩⟩
  · rw [upto_plain h1 1 s _ h2, upto_plain h3 0 s' _ h4, upto_zero]
  · rw [upto_all h]
  · rw [upto_plain h1 1 s _ h2, upto_all h3]

theorem unc_unique {win pre u pre' u'} (h : UncPrefix win pre u) (h' : UncPrefix win pre' u') (e : pre ++ u = pre' ++ u') : pre = pre' ∧ u = u' := by
  rcases h with ⟨a, b, ha, hb, rfl, hn⟩ | ⟨_, d, x, n, k, s, ⟨a, b, q, c, rfl, ha, hb, hq, hc⟩, h2, h3, h4, h5, rfl⟩ <;>
  rcases h' with ⟨a', b', ha', hb', rfl, hn'⟩ | ⟨_, d', x', n', k', s', ⟨a', b', q', c', rfl, ha', hb', hq', hc'⟩, h2', h3', h4', h5', rfl⟩
  · exact append_split e rfl
  · simp only [List.cons_append, List.nil_append, List.cons.injEq] at e
    obtain ⟨_, _, rfl⟩ := e
    exact absurd hq' (hn q' (by simp))
  · simp only [List.cons_append, List.nil_append, List.cons.injEq] at e
    obtain ⟨_, _, rfl⟩ := e
    exact absurd hq (hn' q (by simp))
  · exact append_split e rfl

theorem volume_shape {p rest} (h : Volume p rest) :
    (∃ l w, p ++ rest = l :: w ∧ Letter l ∧ p.length = 2) ∨
    (∃ a b q c x w, p ++ rest = a :: b :: q :: c :: x :: ch ':' :: w ∧ Sep true a ∧ Sep true b ∧ Either '?' '.' q ∧ p.length = 6) ∨
    (∃ a b q c x y w, p ++ rest = a :: b :: q :: c :: x :: y :: w ∧ Sep true a ∧ Sep true b ∧ Either '?' '.' q ∧ Either 'O' 'o' y ∧ p.length = 48) := by
  rcases h with ⟨l, hl, rfl⟩ | ⟨d, x, hd, rfl, l, hl, rfl⟩ | ⟨d, x, hd, rfl, hx, _⟩
  · exact .inl ⟨l, _, rfl, hl, rfl⟩
  · obtain ⟨a, b, q, c, rfl, ha, hb, hq, hc⟩ := hd
    exact .inr (.inl ⟨a, b, q, c, l, rest, rfl, ha, hb, hq, rfl⟩)
  · have l1 := device_len hd
    have l2 := guid_len hx
    obtain ⟨a, b, q, c, rfl, ha, hb, hq, hc⟩ := hd
    obtain ⟨v, o, l, u, m, e, g1, g2, g3, g4, g5, hv, ho, hl, hu, hm, he, h1, h2, h3, h4, h5, rfl⟩ := hx
    refine .inr (.inr ⟨a, b, q, c, v, o, _, by simp only [List.append_assoc, List.cons_append, List.nil_append]; rfl, ha, hb, hq, ho, ?_⟩)
    rw [List.length_append, l1, l2]

theorem colon_ne {y} (h : Either 'O' 'o' y) : y ≠ ch ':' := by rcases h with rfl | rfl <;> decide

theorem volume_unique {p rest p' rest'} (h : Volume p rest) (h' : Volume p' rest') (e : p ++ rest = p' ++ rest') : p = p' ∧ rest = rest' := by
  refine append_split e ?_
  rcases volume_shape h with ⟨l, w, e1, hl, n⟩ | ⟨a, b, q, c, x, w, e1, ha, hb, hq, n⟩ | ⟨a, b, q, c, x, y, w, e1, ha, hb, hq, hy, n⟩ <;>
  rcases volume_shape h' with ⟨l', w', e1', hl', n'⟩ | ⟨a', b', q', c', x', w', e1', ha', hb', hq', n'⟩ | ⟨a', b', q', c', x', y', w', e1', ha', hb', hq', hy', n'⟩ <;>
  rw [n, n'] <;> rw [e, e1'] at e1 <;> simp only [List.cons.injEq] at e1
  · obtain ⟨rfl, _⟩ := e1; exact absurd ha' (letter_not_sep hl)
  · obtain ⟨rfl, _⟩ := e1; exact absurd ha' (letter_not_sep hl)
  · obtain ⟨rfl, _⟩ := e1; exact absurd ha (letter_not_sep hl')
  · exact absurd e1.2.2.2.2.2.1 (colon_ne hy')
  · obtain ⟨rfl, _⟩ := e1; exact absurd ha (letter_not_sep hl')
  · exact absurd e1.2.2.2.2.2.1.symm (colon_ne hy)

theorem unc_shape {win pre u} (h : UncPrefix win pre u) : ∃ a b w, pre ++ u = a :: b :: w ∧ Sep win a ∧ Sep win b ∧
    ((∀ c ∈ w.head?, ¬ Either '?' '.' c) ∨ ∃ q c x n z, w = q :: c :: x :: n :: z ∧ Either 'N' 'n' n) := by
  rcases h with ⟨a, b, ha, hb, rfl, hn⟩ | ⟨_, d, x, n, k, s, ⟨a, b, q, c, rfl, ha, hb, hq, hc⟩, h2, h3, h4, h5, rfl⟩
  · exact ⟨a, b, u, rfl, ha, hb, .inl hn⟩
  · exact ⟨a, b, _, rfl, ha, hb, .inr ⟨q, c, x, n, _, rfl, h3⟩⟩

theorem unc_not_volume {pre u p rest} (h : UncPrefix true pre u) (h' : Volume p rest) : pre ++ u ≠ p ++ rest := by
  intro e
  obtain ⟨a, b, w, e1, ha, hb, hw⟩ := unc_shape h
  rw [e1] at e
  rcases volume_shape h' with ⟨l', w', e1', hl', n'⟩ | ⟨a', b', q', c', x', w', e1', ha', hb', hq', n'⟩ | ⟨a', b', q', c', x', y', w', e1', ha', hb', hq', hy', n'⟩ <;>
    rw [e1'] at e <;> simp only [List.cons.injEq] at e
  · obtain ⟨rfl, _⟩ := e; exact letter_not_sep hl' ha
  · obtain ⟨_, _, rfl⟩ := e
    rcases hw with hw | ⟨q, c, x, n, z, e2, hn⟩
    · exact hw q' (by simp) hq'
    · simp only [List.cons.injEq] at e2
      obtain ⟨_, _, _, h, _⟩ := e2
      rcases hn with rfl | rfl <;> exact absurd h (by decide)
  · obtain ⟨_, _, rfl⟩ := e
    rcases hw with hw | ⟨q, c, x, n, z, e2, hn⟩
    · exact hw q' (by simp) hq'
    · simp only [List.cons.injEq] at e2
      obtain ⟨_, _, _, rfl, _⟩ := e2
      rcases hn with rfl | rfl <;> rcases hy' with h | h <;> exact absurd h (by decide)

theorem single_not_unc {win s u pre w} (hn : ∀ c ∈ u.head?, ¬ Sep win c) (h : UncPrefix win pre w) : s :: u ≠ pre ++ w := by
  intro e
  obtain ⟨a, b, z, e1, ha, hb, _⟩ := unc_shape h
  rw [e1] at e; cases e
  exact hn b (by simp) hb

theorem single_not_volume {s u p rest} (hs : Sep true s) (hn : ∀ c ∈ u.head?, ¬ Sep true c) (h : Volume p rest) : s :: u ≠ p ++ rest := by
  intro e
  rcases volume_shape h with ⟨l', w', e1', hl', n'⟩ | ⟨a', b', q', c', x', w', e1', ha', hb', hq', n'⟩ | ⟨a', b', q', c', x', y', w', e1', ha', hb', hq', hy', n'⟩ <;>
    rw [e1'] at e <;> cases e
  · exact letter_not_sep hl' hs
  · exact hn b' (by simp) hb'
  · exact hn b' (by simp) hb'

/-- a path has at most one root -/
theorem root_unique {win t r r'} (h : Root win t r) (h' : Root win t r') : r = r' := by
  generalize ht' : t = t' at h'
  cases h with
  | current s u hs hn =>
    cases h' with
    | current => cases ht'; rfl
    | unc pre w x hp hx => exact absurd ht' (single_not_unc hn hp)
    | volume p rest hw hv => subst hw; exact absurd ht' (single_not_volume hs hn hv)
    | volumeSep p rest s hw hv => subst hw; exact absurd ht' (single_not_volume hs hn hv)
  | unc pre u x hp hx =>
    cases h' with
    | current s w hs hn => exact absurd ht'.symm (single_not_unc hn hp)
    | unc pre' u' x' hp' hx' =>
      obtain ⟨rfl, rfl⟩ := unc_unique hp hp' ht'
      rw [hx.eq, hx'.eq]
    | volume p rest hw hv => subst hw; exact absurd ht' (unc_not_volume hp hv)
    | volumeSep p rest s hw hv => subst hw; exact absurd ht' (unc_not_volume hp hv)
  | volume p rest hw hv hn =>
    subst hw
    cases h' with
    | current s w hs hn' => exact absurd ht'.symm (single_not_volume hs hn' hv)
    | unc pre' u' x' hp' hx' => exact absurd ht'.symm (unc_not_volume hp' hv)
    | volume p' rest' _ hv' _ => exact (volume_unique hv hv' ht').1
    | volumeSep p' rest' s' _ hv' hs' =>
      obtain ⟨rfl, rfl⟩ := volume_unique hv hv' ht'
      exact absurd hs' (hn s' (by simp))
  | volumeSep p rest s hw hv hs =>
    subst hw
    cases h' with
    | current s w hs hn' => exact absurd ht'.symm (single_not_volume hs hn' hv)
    | unc pre' u' x' hp' hx' => exact absurd ht'.symm (unc_not_volume hp' hv)
    | volume p' rest' _ hv' hn' =>
      obtain ⟨rfl, rfl⟩ := volume_unique hv hv' ht'
      exact absurd hs (hn' s (by simp))
    | volumeSep p' rest' s' _ hv' hs' =>
      obtain ⟨rfl, h⟩ := volume_unique hv hv' ht'
      cases h; rfl

end Verif.Path
