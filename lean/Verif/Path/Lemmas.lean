import Verif.Path.Spec

namespace Verif.Path
open Verif.View

theorem sep_iff {win c} : sep win c = true ↔ Sep win c := by
  unfold sep Sep; cases win <;> simp [or_comm]

theorem alpha_iff {c} : alpha c = true ↔ Letter c := by
  unfold alpha Letter
  have e : "ABCDEFGHIJKLMNOPQRSTUVWXYZabcdefghijklmnopqrstuvwxyz".toList = ['A','B','C','D','E','F','G','H','I','J','K','L','M','N','O','P','Q','R','S','T','U','V','W','X','Y','Z',
    'a','b','c','d','e','f','g','h','i','j','k','l','m','n','o','p','q','r','s','t','u','v','w','x','y','z'] := by decide
  rw [e]
  rw [Bool.or_eq_true, decide_eq_true_iff, decide_eq_true_iff]
  simp [ch]
  omega

theorem hex_iff {c} : hex c = true ↔ HexDigit c := by
  unfold hex HexDigit
  have e : "0123456789ABCDEFabcdef".toList = ['0','1','2','3','4','5','6','7','8','9','A','B','C','D','E','F','a','b','c','d','e','f'] := by decide
  rw [e]
  rw [Bool.or_eq_true, Bool.or_eq_true, decide_eq_true_iff, decide_eq_true_iff, decide_eq_true_iff]
  simp [ch]
  omega

theorem is2_iff {a b c} : is2 a b c = true ↔ Either a b c := by simp [is2, Either]
theorem is_iff {a c} : is a c = true ↔ c = ch a := by simp [is]

/-- the text starts with units that satisfy the tests -/
def matchB : List (Ch → Bool) → List Ch → Bool
  | [], _ => true
  | _ :: _, [] => false
  | f :: fs, c :: t => f c && matchB fs t

theorem matchB_nil (t) : matchB [] t = true ↔ True := by simp [matchB]

theorem matchB_cons (f fs t) : matchB (f :: fs) t = true ↔ ∃ c u, t = c :: u ∧ f c = true ∧ matchB fs u = true := by
  cases t with
  | nil => simp [matchB]
  | cons c t =>
    simp only [matchB, Bool.and_eq_true]
    constructor
    · intro h; exact ⟨c, t, rfl, h.1, h.2⟩
    · rintro ⟨c', u, e, h1, h2⟩; cases e; exact ⟨h1, h2⟩

theorem matchB_append (fs gs t) : matchB (fs ++ gs) t = true ↔ ∃ x y, t = x ++ y ∧ x.length = fs.length ∧ matchB fs x = true ∧ matchB gs y = true := by
  induction fs generalizing t with
  | nil =>
    constructor
    · intro h; exact ⟨[], t, rfl, rfl, rfl, h⟩
    · rintro ⟨x, y, rfl, h1, _, h2⟩
      have : x = [] := List.length_eq_zero_iff.1 h1
      subst this; exact h2
  | cons f fs ih =>
    rw [List.cons_append, matchB_cons]
    constructor
    · rintro ⟨c, u, rfl, h1, h2⟩
      obtain ⟨x, y, rfl, h3, h4, h5⟩ := (ih u).1 h2
      exact ⟨c :: x, y, rfl, by simp [h3], by simp [matchB, h1, h4], h5⟩
    · rintro ⟨x, y, rfl, h1, h2, h3⟩
      obtain ⟨c, u, rfl, h4, h5⟩ := (matchB_cons _ _ _).1 h2
      exact ⟨c, u ++ y, rfl, h4, (ih _).2 ⟨u, y, rfl, by simpa using h1, h5, h3⟩⟩

theorem matchB_replicate (f : Ch → Bool) (n x) (h : x.length = n) : matchB (List.replicate n f) x = true ↔ ∀ c ∈ x, f c = true := by
  induction x generalizing n with
  | nil => cases n with
    | zero => simp [matchB]
    | succ n => simp at h
  | cons c x ih =>
    cases n with
    | zero => simp at h
    | succ n => simp [List.replicate_succ, matchB, ih n (by simpa using h)]

theorem matchB_len {fs t} (h : matchB fs t = true) : fs.length ≤ t.length := by
  induction fs generalizing t with
  | nil => simp
  | cons f fs ih =>
    obtain ⟨c, u, rfl, _, h2⟩ := (matchB_cons _ _ _).1 h
    have := ih h2
    simp; omega

theorem chk_eq {v : View Ch} (hv : v.WF) : ∀ (fs : List (Ch → Bool)) (i : Nat), i + fs.length ≤ v.len → chk v i fs = some (matchB fs (v.text.drop i))
  | [], i, _ => by simp [chk, matchB]
  | f :: fs, i, h => by
    simp only [List.length_cons] at h
    obtain ⟨x, h1, h2⟩ := rd_some hv (show i < v.len by omega)
    have hd : v.text.drop i = x :: v.text.drop (i + 1) := by
      obtain ⟨hl, he⟩ := List.getElem?_eq_some_iff.1 h2
      rw [← he]; exact List.drop_eq_getElem_cons hl
    unfold chk
    rw [h1, hd]
    dsimp only [matchB]
    cases hf : f x with
    | false => simp
    | true => simp [chk_eq hv fs (i + 1) (by omega)]

theorem chkLen_eq {v : View Ch} (hv : v.WF) (fs) : chkLen v fs = some (matchB fs v.text) := by
  unfold chkLen
  split
  · rw [chk_eq hv fs 0 (by omega)]; rfl
  · rename_i h
    cases hm : matchB fs v.text with
    | false => rfl
    | true => have := matchB_len hm; rw [text_length hv] at this; omega

theorem rd0 {v : View Ch} (hv : v.WF) {c u} (h : v.text = c :: u) : v.rd 0 = some c := by
  have hl := text_length hv
  rw [h] at hl
  rw [rd_eq (by rw [← hl]; simp), h]; rfl

theorem rd_drop {v : View Ch} (hv : v.WF) {i : Nat} (hi : i < v.len) : ∃ c u, v.text.drop i = c :: u ∧ v.rd i = some c := by
  obtain ⟨x, h1, h2⟩ := rd_some hv hi
  obtain ⟨hl, he⟩ := List.getElem?_eq_some_iff.1 h2
  exact ⟨x, v.text.drop (i + 1), by rw [← he]; exact List.drop_eq_getElem_cons hl, h1⟩

/-! ### `TryParseUncPath` -/

theorem device_iff {win t} : matchB [sep win, sep win, is2 '?' '.', sep win] t = true ↔ ∃ d u, Device win d ∧ t = d ++ u := by
  simp only [matchB_cons, matchB_nil, and_true, sep_iff, is2_iff]
  constructor
  · rintro ⟨a, _, rfl, ha, b, _, rfl, hb, q, _, rfl, hq, c, u, rfl, hc⟩
    exact ⟨[a, b, q, c], u, ⟨a, b, q, c, rfl, ha, hb, hq, hc⟩, rfl⟩
  · rintro ⟨_, u, ⟨a, b, q, c, rfl, ha, hb, hq, hc⟩, rfl⟩
    exact ⟨a, _, rfl, ha, b, _, rfl, hb, q, _, rfl, hq, c, u, rfl, hc⟩

/-- exactly one of: not a network path; the prefix has two units; it has eight -/
theorem tryUnc_spec {win} {v : View Ch} (hv : v.WF) :
    (tryUnc win v = some 0 ∧ ∀ pre u, UncPrefix win pre u → v.text ≠ pre ++ u) ∨
    (∃ n pre u, tryUnc win v = some n ∧ n ≠ 0 ∧ n = pre.length ∧ UncPrefix win pre u ∧ v.text = pre ++ u) := by
  have hl := text_length hv
  unfold tryUnc
  rw [chkLen_eq hv]
  by_cases h2 : matchB [sep win, sep win] v.text = true
  · obtain ⟨a, _, e, ha, h'⟩ := (matchB_cons _ _ _).1 h2
    obtain ⟨b, u, rfl, hb, _⟩ := (matchB_cons _ _ _).1 h'
    rw [sep_iff] at ha hb
    rw [h2]
    simp only [Option.bind_eq_bind, Option.bind_some, if_true]
    cases u with
    | nil =>
      have : v.len = 2 := by rw [← hl, e]; rfl
      rw [if_neg (by omega)]
      refine .inr ⟨2, [a, b], [], by simp, by simp, rfl, .inl ⟨a, b, ha, hb, rfl, by simp⟩, e⟩
    | cons q u =>
      have hlen : v.len = u.length + 3 := by rw [← hl, e]; rfl
      have hq : v.rd 2 = some q := by rw [rd_eq (by omega), e]; rfl
      rw [if_pos (by omega), hq]
      simp only [Option.map_some, Option.bind_some]
      by_cases hqq : is2 '?' '.' q = true
      · rw [if_pos hqq]
        have no2 : ∀ pre w, (∃ a b, Sep win a ∧ Sep win b ∧ pre = [a, b] ∧ ∀ c ∈ w.head?, ¬ Either '?' '.' c) → v.text ≠ pre ++ w := by
          rintro pre w ⟨a', b', _, _, rfl, hn⟩ he
          rw [e] at he
          simp only [List.cons_append, List.nil_append, List.cons.injEq] at he
          obtain ⟨_, _, rfl⟩ := he
          exact hn q (by simp) (is2_iff.1 hqq)
        cases win with
        | false =>
          simp only [Bool.false_eq_true, if_false]
          refine .inl ⟨rfl, ?_⟩
          rintro pre w (h | ⟨hw, _⟩)
          · exact no2 pre w h
          · cases hw
        | true =>
          simp only [if_true]
          have key : (if v.len ≥ 8 then chk v 3 [sep true, is2 'U' 'u', is2 'N' 'n', is2 'C' 'c', sep true] else some false) =
              some (matchB [sep true, is2 'U' 'u', is2 'N' 'n', is2 'C' 'c', sep true] u) := by
            split
            · rw [chk_eq hv _ 3 (by simpa using (by omega : 3 + 5 ≤ v.len)), e]; rfl
            · cases hm : matchB [sep true, is2 'U' 'u', is2 'N' 'n', is2 'C' 'c', sep true] u with
              | false => rfl
              | true => have := matchB_len hm; simp at this; omega
          rw [key]
          simp only [Option.bind_some]
          have frm : matchB [sep true, is2 'U' 'u', is2 'N' 'n', is2 'C' 'c', sep true] u = true ↔
              ∃ c x n k s w, u = c :: x :: n :: k :: s :: w ∧ Sep true c ∧ Either 'U' 'u' x ∧ Either 'N' 'n' n ∧ Either 'C' 'c' k ∧ Sep true s := by
            simp only [matchB_cons, matchB_nil, and_true, sep_iff, is2_iff]
            constructor
            · rintro ⟨a, _, rfl, ha, b, _, rfl, hb, q, _, rfl, hq, c, _, rfl, hc, d, w, rfl, hd⟩
              exact ⟨a, b, q, c, d, w, rfl, ha, hb, hq, hc, hd⟩
            · rintro ⟨a, b, q, c, d, w, rfl, ha, hb, hq, hc, hd⟩
              exact ⟨a, _, rfl, ha, b, _, rfl, hb, q, _, rfl, hq, c, _, rfl, hc, d, w, rfl, hd⟩
          by_cases hm : matchB [sep true, is2 'U' 'u', is2 'N' 'n', is2 'C' 'c', sep true] u = true
          · rw [if_pos hm]
            obtain ⟨c, x, n, k, s, w, rfl, h1, h2, h3, h4, h5⟩ := frm.1 hm
            exact .inr ⟨8, [a, b, q, c] ++ [x, n, k, s], w, rfl, by simp, rfl,
              .inr ⟨rfl, [a, b, q, c], x, n, k, s, ⟨a, b, q, c, rfl, ha, hb, is2_iff.1 hqq, h1⟩, h2, h3, h4, h5, rfl⟩, e⟩
          · rw [if_neg hm]
            refine .inl ⟨rfl, ?_⟩
            rintro pre w (h | ⟨_, d, x, n, k, s, ⟨a', b', q', c', rfl, _, _, _, hc'⟩, h2, h3, h4, h5, rfl⟩)
            · exact no2 pre w h
            · intro he
              rw [e] at he
              simp only [List.cons_append, List.nil_append, List.cons.injEq] at he
              obtain ⟨_, _, _, rfl⟩ := he
              exact hm (frm.2 ⟨c', x, n, k, s, w, rfl, hc', h2, h3, h4, h5⟩)
      · rw [if_neg hqq]
        refine .inr ⟨2, [a, b], q :: u, rfl, by simp, rfl, .inl ⟨a, b, ha, hb, rfl, ?_⟩, e⟩
        intro c hc
        simp only [List.head?_cons, Option.mem_def, Option.some.injEq] at hc
        subst hc
        exact fun h => hqq (is2_iff.2 h)
  · have h2' : matchB [sep win, sep win] v.text = false := by simpa using h2
    rw [h2']
    refine .inl ⟨by simp, ?_⟩
    intro pre u hu e
    apply h2
    rw [e]
    rcases hu with ⟨a, b, ha, hb, rfl, _⟩ | ⟨_, d, x, n, k, s, ⟨a, b, q, c, rfl, ha, hb, _, _⟩, _, _, _, _, rfl⟩
    · simp [matchB, sep_iff.2 ha, sep_iff.2 hb]
    · simp [matchB, sep_iff.2 ha, sep_iff.2 hb]

/-! ### `TryParseVolumePath` -/

theorem drive_iff {t} : matchB [alpha, is ':'] t = true ↔ ∃ p u, Drive p ∧ t = p ++ u := by
  simp only [matchB_cons, matchB_nil, and_true, alpha_iff, is_iff]
  constructor
  · rintro ⟨l, _, rfl, hl, c, u, rfl, rfl⟩; exact ⟨[l, ch ':'], u, ⟨l, hl, rfl⟩, rfl⟩
  · rintro ⟨_, u, ⟨l, hl, rfl⟩, rfl⟩; exact ⟨l, _, rfl, hl, _, u, rfl, rfl⟩

theorem matchB_mid (fs gs t) : matchB (fs ++ gs) t = true ↔ ∃ x y, t = x ++ y ∧ x.length = fs.length ∧ matchB fs x = true ∧ matchB gs y = true :=
  matchB_append fs gs t

theorem hexes_iff {n t gs} : matchB (List.replicate n hex ++ gs) t = true ↔ ∃ x y, t = x ++ y ∧ Hexes n x ∧ matchB gs y = true := by
  rw [matchB_append]
  constructor
  · rintro ⟨x, y, rfl, h1, h2, h3⟩
    have h1' : x.length = n := by simpa using h1
    refine ⟨x, y, rfl, ⟨h1', fun c hc => hex_iff.1 ((matchB_replicate _ _ _ h1').1 h2 c hc)⟩, h3⟩
  · rintro ⟨x, y, rfl, ⟨h1, h2⟩, h3⟩
    exact ⟨x, y, rfl, by simpa using h1, (matchB_replicate _ _ _ h1).2 (fun c hc => hex_iff.2 (h2 c hc)), h3⟩

def volChecks : List (Ch → Bool) := [is2 'V' 'v', is2 'O' 'o', is2 'L' 'l', is2 'U' 'u', is2 'M' 'm', is2 'E' 'e', is '{'] ++
  (List.replicate 8 hex ++ (is '-' :: (List.replicate 4 hex ++ (is '-' :: (List.replicate 4 hex ++ (is '-' ::
  (List.replicate 4 hex ++ (is '-' :: (List.replicate 12 hex ++ [is '}'])))))))))

theorem guidChecks_eq : guidChecks = [sep true, sep true, is2 '?' '.', sep true] ++ volChecks := rfl

theorem vol_iff {t} : matchB volChecks t = true ↔ ∃ p u, GuidVolume p ∧ t = p ++ u := by
  unfold volChecks
  simp only [List.cons_append, List.nil_append, matchB_cons, matchB_nil, hexes_iff, is2_iff, is_iff, and_true]
  constructor
  · rintro ⟨v, _, rfl, hv, o, _, rfl, ho, l, _, rfl, hl, u, _, rfl, hu, m, _, rfl, hm, e, _, rfl, he, _, _, rfl, rfl,
      g1, _, rfl, h1, _, _, rfl, rfl, g2, _, rfl, h2, _, _, rfl, rfl, g3, _, rfl, h3, _, _, rfl, rfl, g4, _, rfl, h4, _, _, rfl, rfl, g5, _, rfl, h5, _, w, rfl, rfl⟩
    exact ⟨_, w, ⟨v, o, l, u, m, e, g1, g2, g3, g4, g5, hv, ho, hl, hu, hm, he, h1, h2, h3, h4, h5, rfl⟩, by simp⟩
  · rintro ⟨_, w, ⟨v, o, l, u, m, e, g1, g2, g3, g4, g5, hv, ho, hl, hu, hm, he, h1, h2, h3, h4, h5, rfl⟩, rfl⟩
    exact ⟨v, _, by simp only [List.append_assoc, List.cons_append]; rfl, hv, o, _, rfl, ho, l, _, rfl, hl, u, _, rfl, hu, m, _, rfl, hm, e, _, rfl, he, _, _, rfl, rfl,
      g1, _, rfl, h1, _, _, rfl, rfl, g2, _, rfl, h2, _, _, rfl, rfl, g3, _, rfl, h3, _, _, rfl, rfl, g4, _, rfl, h4, _, _, rfl, rfl, g5, _, rfl, h5, _, w, rfl, rfl⟩

theorem guid_len {p} (h : GuidVolume p) : p.length = 44 := by
  obtain ⟨v, o, l, u, m, e, g1, g2, g3, g4, g5, _, _, _, _, _, _, h1, h2, h3, h4, h5, rfl⟩ := h
  simp only [List.length_append, List.length_cons, List.length_nil, h1.1, h2.1, h3.1, h4.1, h5.1]

theorem device_len {win d} (h : Device win d) : d.length = 4 := by obtain ⟨a, b, q, c, rfl, _⟩ := h; rfl
theorem drive_len {p} (h : Drive p) : p.length = 2 := by obtain ⟨l, _, rfl⟩ := h; rfl

theorem append_split {a b x y : List Ch} (h : a ++ b = x ++ y) (hl : a.length = x.length) : a = x ∧ b = y := List.append_inj h hl

/-- the volume prefix found, or none exists -/
theorem tryVol_spec {v : View Ch} (hv : v.WF) :
    (tryVol v = some 0 ∧ ∀ p rest, Volume p rest → v.text ≠ p ++ rest) ∨
    (∃ n p rest, tryVol v = some n ∧ n ≠ 0 ∧ n = p.length ∧ Volume p rest ∧ v.text = p ++ rest) := by
  have hl := text_length hv
  unfold tryVol
  rw [chkLen_eq hv, chkLen_eq hv, chkLen_eq hv]
  simp only [Option.bind_eq_bind, Option.bind_some]
  by_cases h1 : matchB [alpha, is ':'] v.text = true
  · rw [if_pos h1]
    obtain ⟨p, u, hp, e⟩ := drive_iff.1 h1
    exact .inr ⟨2, p, u, rfl, by simp, (drive_len hp).symm, .inl hp, e⟩
  · rw [if_neg h1]
    have c6 : matchB [sep true, sep true, is2 '?' '.', sep true, alpha, is ':'] v.text = true ↔
        ∃ d x u, Device true d ∧ Drive x ∧ v.text = d ++ x ++ u := by
      rw [show ([sep true, sep true, is2 '?' '.', sep true, alpha, is ':'] : List (Ch → Bool)) =
        [sep true, sep true, is2 '?' '.', sep true] ++ [alpha, is ':'] from rfl, matchB_append]
      constructor
      · rintro ⟨x, y, e, hx, h2, h3⟩
        obtain ⟨d, u, hd, rfl⟩ := device_iff.1 h2
        have hdl := device_len hd
        have : u = [] := by
          simp only [List.length_append, hdl, List.length_cons, List.length_nil] at hx
          exact List.length_eq_zero_iff.1 (by omega)
        subst this
        obtain ⟨p, u, hp, rfl⟩ := drive_iff.1 h3
        exact ⟨d, p, u, hd, hp, by rw [e]; simp⟩
      · rintro ⟨d, x, u, hd, hx, e⟩
        refine ⟨d, x ++ u, by rw [e]; simp, by rw [device_len hd]; rfl, device_iff.2 ⟨d, [], hd, by simp⟩, drive_iff.2 ⟨x, u, hx, rfl⟩⟩
    by_cases h2 : matchB [sep true, sep true, is2 '?' '.', sep true, alpha, is ':'] v.text = true
    · rw [if_pos h2]
      obtain ⟨d, x, u, hd, hx, e⟩ := c6.1 h2
      exact .inr ⟨6, d ++ x, u, rfl, by simp, by simp [device_len hd, drive_len hx], .inr (.inl ⟨d, x, hd, rfl, hx⟩), e⟩
    · rw [if_neg h2]
      have c48 : matchB guidChecks v.text = true ↔ ∃ d x u, Device true d ∧ GuidVolume x ∧ v.text = d ++ x ++ u := by
        rw [guidChecks_eq, matchB_append]
        constructor
        · rintro ⟨x, y, e, hx, h2, h3⟩
          obtain ⟨d, u, hd, rfl⟩ := device_iff.1 h2
          have hdl := device_len hd
          have : u = [] := by
            simp only [List.length_append, hdl, List.length_cons, List.length_nil] at hx
            exact List.length_eq_zero_iff.1 (by omega)
          subst this
          obtain ⟨p, u, hp, rfl⟩ := vol_iff.1 h3
          exact ⟨d, p, u, hd, hp, by rw [e]; simp⟩
        · rintro ⟨d, x, u, hd, hx, e⟩
          refine ⟨d, x ++ u, by rw [e]; simp, by rw [device_len hd]; rfl, device_iff.2 ⟨d, [], hd, by simp⟩, vol_iff.2 ⟨x, u, hx, rfl⟩⟩
      have no26 : ∀ p rest, (Drive p ∨ ∃ d x, Device true d ∧ p = d ++ x ∧ Drive x) → v.text ≠ p ++ rest := by
        rintro p rest (hp | ⟨d, x, hd, rfl, hx⟩) e
        · exact h1 (drive_iff.2 ⟨p, rest, hp, e⟩)
        · exact h2 (c6.2 ⟨d, x, rest, hd, hx, e⟩)
      by_cases h3 : matchB guidChecks v.text = true
      · rw [if_pos h3]
        obtain ⟨d, x, u, hd, hx, e⟩ := c48.1 h3
        have hlen : v.len = u.length + 48 := by rw [← hl, e]; simp [device_len hd, guid_len hx]; omega
        cases u with
        | nil =>
          rw [if_pos (by simpa using hlen)]
          simp only [Option.bind_some, if_true]
          exact .inr ⟨48, d ++ x, [], rfl, by simp, by simp [device_len hd, guid_len hx], .inr (.inr ⟨d, x, hd, rfl, hx, by simp⟩), e⟩
        | cons c u =>
          simp only [List.length_cons] at hlen
          rw [if_neg (by omega)]
          have hr : v.rd 48 = some c := by
            rw [rd_eq (by omega), e, List.getElem?_append_right (by simp [device_len hd, guid_len hx])]
            simp [device_len hd, guid_len hx]
          rw [hr]
          simp only [Option.map_some, Option.bind_some]
          by_cases hc : sep true c = true
          · rw [if_pos hc]
            refine .inr ⟨48, d ++ x, c :: u, rfl, by simp, by simp [device_len hd, guid_len hx], .inr (.inr ⟨d, x, hd, rfl, hx, ?_⟩), e⟩
            intro y hy
            simp only [List.head?_cons, Option.mem_def, Option.some.injEq] at hy
            subst hy; exact sep_iff.1 hc
          · rw [if_neg hc]
            refine .inl ⟨rfl, ?_⟩
            rintro p rest (hp | hp | ⟨d', x', hd', rfl, hx', hr'⟩) e'
            · exact no26 p rest (.inl hp) e'
            · exact no26 p rest (.inr hp) e'
            · rw [e] at e'
              obtain ⟨_, rfl⟩ := append_split e' (by simp [device_len hd, guid_len hx, device_len hd', guid_len hx'])
              exact hc (sep_iff.2 (hr' c (by simp)))
      · rw [if_neg h3]
        refine .inl ⟨rfl, ?_⟩
        rintro p rest (hp | hp | ⟨d', x', hd', rfl, hx', _⟩) e'
        · exact no26 p rest (.inl hp) e'
        · exact no26 p rest (.inr hp) e'
        · exact h3 (c48.2 ⟨d', x', rest, hd', hx', e'⟩)

/-! ### One separator -/

theorem oneSep_spec {win} {v : View Ch} (hv : v.WF) (h0 : v.len ≠ 0) :
    (oneSep win v = some true ∧ SingleSep win v.text) ∨ (oneSep win v = some false ∧ ¬ SingleSep win v.text) := by
  have hl := text_length hv
  cases e : v.text with
  | nil => rw [e] at hl; simp at hl; omega
  | cons c u =>
    unfold oneSep
    rw [rd0 hv e]
    simp only [Option.bind_eq_bind, Option.map_some, Option.bind_some]
    by_cases hc : sep win c = true
    · rw [if_pos hc]
      cases u with
      | nil =>
        rw [if_pos (by rw [← hl, e]; rfl)]
        exact .inl ⟨rfl, c, [], sep_iff.1 hc, rfl, by simp⟩
      | cons d u =>
        have hlen : v.len = u.length + 2 := by rw [← hl, e]; rfl
        have hr : v.rd 1 = some d := by rw [rd_eq (by omega), e]; rfl
        rw [if_neg (by omega), hr]
        simp only [Option.map_some, Option.bind_some]
        by_cases hd : sep win d = true
        · rw [hd]
          refine .inr ⟨rfl, ?_⟩
          rintro ⟨s, w, _, e', hn⟩
          cases e'
          exact hn d (by simp) (sep_iff.1 hd)
        · have hd' : sep win d = false := by simpa using hd
          rw [hd']
          refine .inl ⟨rfl, c, d :: u, sep_iff.1 hc, rfl, ?_⟩
          intro y hy
          simp only [List.head?_cons, Option.mem_def, Option.some.injEq] at hy
          subst hy; exact fun h => hd (sep_iff.2 h)
    · rw [if_neg hc]
      refine .inr ⟨rfl, ?_⟩
      rintro ⟨s, w, hs, e', _⟩
      cases e'
      exact hc (sep_iff.2 hs)

end Verif.Path
