import Verif.StrHeap.Witness

/-!
C92: `AppendFormatV`, `AppendFormat`, `FormatV`, `Format` of `StringFunctionImp` (include/YY/Base/Strings/String.h 47-132) over the storage model; `GetStringFormatLength` and `FormatStringV` are
include/YY/Base/tchar.h 96-171.

The printf functions of the C runtime are modelled as a reader of the format and the arguments: a format is a list of literal pieces, conversions (each takes the next argument) and invalid conversions (result
negative). An argument is a value, given by what it is printed as, or a pointer to a zero-terminated string, which is read when the argument is printed. Not modelled: width and precision, a null format
(`E_INVALIDARG` before anything else, 55-56, 86-87, 103-104, 117-118), lengths beyond `int`.
-/

namespace Verif.StrHeap

/-! ### model -/

inductive Piece where
  | lit (l : List Nat)
  | arg
  | bad

/-- an argument: printed value, or a pointer to offset `off` of the buffer of block `a` -/
inductive Arg where
  | val (l : List Nat)
  | ptr (a off : Nat)

/-- reading a zero-terminated string, at most to the end of the buffer (beyond it: undefined) -/
def readZ (d : SD) (k : Nat) : Nat → Option (List Nat)
  | 0 => none
  | n + 1 => if d.buf k = 0 then some [] else (readZ d (k + 1) n).map (d.buf k :: ·)

/-- what a printf function finds: undefined behaviour, a negative result, or text and the number of arguments taken -/
inductive Rend where
  | ub
  | neg
  | txt (l : List Nat) (used : Nat)

def Rend.cons (l : List Nat) (n : Nat) : Rend → Rend
  | .ub => .ub
  | .neg => .neg
  | .txt t k => .txt (l ++ t) (n + k)

/-- an argument, printed -/
def readArg (m : Mem) : Arg → Option (List Nat)
  | .val l => some l
  | .ptr a off =>
    match m a with
    | none => none
    | some d => readZ d off (d.cap + 1 - off)

def render (m : Mem) : List Piece → List Arg → Rend
  | [], _ => .txt [] 0
  | .lit l :: f, as => (render m f as).cons l 0
  | .bad :: _, _ => .neg
  | .arg :: _, [] => .ub
  | .arg :: f, x :: as =>
    match readArg m x with
    | none => .ub
    | some l => (render m f as).cons l 1

def Arg.into (q : Nat) : Arg → Bool
  | .val _ => false
  | .ptr a _ => a == q

/-- `AppendFormatV` (51-80). `byVal`: a `va_list` that a function has used can be used again by its caller (Windows: a pointer passed by value; the C standard leaves it indeterminate, and where it is passed by reference the
second call takes the arguments behind the last one). Printing an argument that lies in the buffer written to is undefined (overlap). -/
def appendFormat (cls : Nat) (byVal : Bool) (m : Mem) (p : Nat) (f : List Piece) (as : List Arg) (al : Al) : Res :=
  match m p with
  | none => .ub
  | some d =>
    -- 61-63
    match render m f as with
    | .ub => .ub
    | .neg => .ret .invalidArg m p
    | .txt t used =>
      -- 65-67
      match lockBuffer cls m p (d.size + t.length) al with
      | .ub => .ub
      | .thr m p => .thr m p
      | .ret .ok m q =>
        -- 69
        if (byVal = false ∧ 0 < used) ∨ (as.take used).any (·.into q) then .ub
        else
          match render m f as with
          | .ub => .ub
          | .neg =>
            -- 72
            match unlockN m q d.size with
            | .ret _ m q => .ret .invalidArg m q
            | r => r
          | .txt t2 _ =>
            if t.length < t2.length then .ub
            else
              match copyIn m q d.size (.ext (t2 ++ [0])) with
              | none => .ub
              -- 77
              | some m => unlockN m q (d.size + t2.length)
      | .ret _ m p => .ret .oom m p

/-- `FormatV` / `Format` (99-131): the arguments were evaluated before `Clear` -/
def format (cls : Nat) (byVal : Bool) (m : Mem) (p : Nat) (f : List Piece) (as : List Arg) (al : Al) : Res :=
  match clear m p with
  | .ret _ m p => appendFormat cls byVal m p f as al
  | r => r

/-- an argument of the caller: a value, or a pointer into the text of handle `h` -/
inductive FArg where
  | val (l : List Nat)
  | of (h off : Nat)

/-- its evaluation -/
def argOf (s : St) : FArg → Arg
  | .val l => .val l
  | .of h off => .ptr (match s.hs[h]? with | some (some a) => a | _ => 0) off

/-- the calls on handle `i`; `set`: `Format` instead of `AppendFormat` -/
def fmtStep (cls : Nat) (byVal set : Bool) (s : St) (i : Nat) (f : List Piece) (as : List FArg) (al : Al) : Out :=
  onHandle s i (fun m p => if set then format cls byVal m p f (as.map (argOf s)) al else appendFormat cls byVal m p f (as.map (argOf s)) al)

/-! ### specification -/

/-- what an argument says: the text up to its first zero -/
def says (s : St) : FArg → List Nat
  | .val l => l
  | .of h off =>
    match blk s h with
    | some d => (d.text.drop off).takeWhile (· ≠ 0)
    | none => []

/-- the text a format stands for; `none`: it is invalid -/
def said (s : St) : List Piece → List FArg → Option (List Nat)
  | [], _ => some []
  | .lit l :: f, as => (said s f as).map (l ++ ·)
  | .bad :: _, _ => none
  | .arg :: f, [] => said s f []
  | .arg :: f, x :: as => (said s f as).map (says s x ++ ·)

/-- number of arguments a format takes -/
def takes : List Piece → Nat
  | [] => 0
  | .arg :: f => takes f + 1
  | _ :: f => takes f

/-- a proper argument for a call on handle `i`: a value, or a pointer into the text of a terminated String that is not `i`, or is `i` but shared with another -/
def ArgValid (s : St) (i : Nat) : FArg → Prop
  | .val _ => True
  | .of h off => (∃ d, blk s h = some d ∧ off ≤ d.size ∧ d.buf d.size = 0) ∧ (h ≠ i ∨ SharedWith s i)

/-- histories of String operations and formattings on Windows -/
inductive FRun (cls : Nat) : St → Prop
  | init : FRun cls (init cls)
  | op {s s' op} : FRun cls s → Valid s op → Few s → (step cls s op).st = some s' → FRun cls s'
  | fmt {s s' i f as al set} : FRun cls s → Live s i → AlOk s i al → (∀ x ∈ as, ArgValid s i x) → takes f ≤ as.length → Few s →
      (fmtStep cls true set s i f as al).st = some s' → FRun cls s'

/-! ### rendering -/

theorem readZ_ok {d : SD} : ∀ (n k : Nat), k ≤ d.size → d.buf d.size = 0 → d.size < k + n → readZ d k n = some ((d.text.drop k).takeWhile (· ≠ 0))
  | 0, k, h1, h2, h3 => by omega
  | n + 1, k, h1, h2, h3 => by
    unfold readZ
    by_cases hk : k = d.size
    · subst hk
      rw [if_pos h2, List.drop_eq_nil_of_le (by rw [text_length]; exact Nat.le_refl _)]; rfl
    · have hlt : k < d.text.length := by rw [text_length]; omega
      have hg : d.text[k] = d.buf k := by
        have := text_get d k (by omega)
        rw [List.getElem?_eq_getElem hlt] at this; exact Option.some.inj this
      rw [List.drop_eq_getElem_cons hlt, hg]
      by_cases h0 : d.buf k = 0
      · rw [if_pos h0, List.takeWhile_cons_of_neg (by simp [h0])]
      · rw [if_neg h0, List.takeWhile_cons_of_pos (by simp [h0]), readZ_ok n (k + 1) (by omega) h2 (by omega)]; rfl

/-- the rendering of a specified text -/
def Rend.of (r : Option (List Nat)) (n : Nat) : Rend :=
  match r with
  | none => .neg
  | some t => .txt t n

/-- arguments as a member function of handle `i` needs them: in memory of others -/
def ArgOk (o : Nat → Nat) : Arg → Prop
  | .val _ => True
  | .ptr a _ => 0 < o a

theorem readArg_frame {o : Nat → Nat} {m m' : Mem} (h : ∀ a, 0 < o a → obs m' a = obs m a) {x : Arg} (hx : ArgOk o x) : readArg m' x = readArg m x := by
  cases x with
  | val l => rfl
  | ptr a off =>
    have := h a hx
    unfold obs at this
    cases e : m a with
    | none => cases e' : m' a with
      | none => simp only [readArg, e, e']
      | some y => rw [e, e'] at this; cases this
    | some y => cases e' : m' a with
      | none => rw [e, e'] at this; cases this
      | some z =>
        rw [e, e'] at this
        simp at this
        obtain ⟨_, h2, _, _, h5⟩ := this
        simp only [readArg, e, e', h2]
        have : ∀ n k, readZ z k n = readZ y k n := by
          intro n
          induction n with
          | zero => intro k; rfl
          | succ n ih => intro k; simp only [readZ, h5, ih]
        rw [this]

theorem render_frame {o : Nat → Nat} {m m' : Mem} (h : ∀ a, 0 < o a → obs m' a = obs m a) : ∀ (f : List Piece) (as : List Arg), (∀ x ∈ as, ArgOk o x) → render m' f as = render m f as
  | [], _, _ => rfl
  | .lit l :: f, as, hx => by simp only [render, render_frame h f as hx]
  | .bad :: _, _, _ => rfl
  | .arg :: _, [], _ => rfl
  | .arg :: f, x :: as, hx => by
    simp only [render, readArg_frame h (hx x (by simp)), render_frame h f as (fun y hy => hx y (by simp [hy]))]

theorem render_not_neg {m : Mem} (m' : Mem) : ∀ {f : List Piece} {as : List Arg} {t : List Nat} {n : Nat}, render m f as = .txt t n → render m' f as ≠ .neg
  | [], _, _, _, _ => by simp [render]
  | .lit l :: f, as, t, n, h => by
    simp only [render] at h ⊢
    cases e : render m f as with
    | ub => rw [e] at h; cases h
    | neg => rw [e] at h; cases h
    | txt t' n' =>
      have := render_not_neg m' e
      cases e' : render m' f as <;> simp_all [Rend.cons]
  | .bad :: _, _, _, _, h => by cases h
  | .arg :: _, [], _, _, h => by cases h
  | .arg :: f, x :: as, t, n, h => by
    simp only [render] at h ⊢
    cases e0 : readArg m x with
    | none => rw [e0] at h; cases h
    | some l =>
      rw [e0] at h; dsimp only at h
      cases readArg m' x with
      | none => simp
      | some l' =>
        dsimp only
        cases e : render m f as with
        | ub => rw [e] at h; cases h
        | neg => rw [e] at h; cases h
        | txt t' n' =>
          have := render_not_neg m' e
          cases e' : render m' f as <;> simp_all [Rend.cons]

/-- an argument taken whose block is gone: undefined -/
theorem render_dead {m m' : Mem} {a off : Nat} (ha : m' a = none) : ∀ {f : List Piece} {as : List Arg} {t : List Nat} {n : Nat}, render m f as = .txt t n → Arg.ptr a off ∈ as.take n → render m' f as = .ub
  | [], _, _, _, h, hm => by simp only [render, Rend.txt.injEq] at h; rw [← h.2] at hm; simp at hm
  | .lit l :: f, as, t, n, h, hm => by
    simp only [render] at h ⊢
    cases e : render m f as with
    | ub => rw [e] at h; cases h
    | neg => rw [e] at h; cases h
    | txt t' n' =>
      rw [e] at h; simp only [Rend.cons, Rend.txt.injEq] at h
      rw [render_dead ha e (by rw [← h.2] at hm; simpa using hm)]; rfl
  | .bad :: _, _, _, _, h, _ => by cases h
  | .arg :: _, [], _, _, h, _ => by cases h
  | .arg :: f, x :: as, t, n, h, hm => by
    simp only [render] at h ⊢
    cases e0 : readArg m x with
    | none => rw [e0] at h; cases h
    | some l =>
      rw [e0] at h; dsimp only at h
      cases e : render m f as with
      | ub => rw [e] at h; cases h
      | neg => rw [e] at h; cases h
      | txt t' n' =>
        rw [e] at h; simp only [Rend.cons, Rend.txt.injEq] at h
        rw [← h.2, Nat.add_comm, List.take_succ_cons] at hm
        rcases List.mem_cons.1 hm with rfl | hm
        · simp only [readArg, ha]
        · cases readArg m' x with
          | none => rfl
          | some l' => dsimp only; rw [render_dead ha e hm]; rfl

theorem argOf_ok {cls s i} (inv : Inv cls s) {x : FArg} (hx : ArgValid s i x) : ArgOk (cnt (s.hs.set i none)) (argOf s x) ∧ readArg s.mem (argOf s x) = some (says s x) := by
  cases x with
  | val l => exact ⟨trivial, rfl⟩
  | of h off =>
    obtain ⟨⟨d, hb, hr, hz⟩, hk⟩ := hx
    obtain ⟨a, ha⟩ := live_of_blk hb
    have hm := hb; rw [blk_eq ha] at hm
    have hsz := inv.size_le hm
    constructor
    · simp only [argOf, ha, ArgOk]
      by_cases e : h = i
      · subst e
        rcases hk with hk | ⟨k, hk, a', ha', hka⟩
        · exact absurd rfl hk
        · rw [ha] at ha'; cases ha'; exact oth_pos hk hka
      · exact oth_pos e ha
    · simp only [argOf, ha, readArg, hm, says, hb]
      exact readZ_ok _ _ hr hz (by omega)

theorem render_said {cls s i} (inv : Inv cls s) : ∀ (f : List Piece) (as : List FArg), (∀ x ∈ as, ArgValid s i x) → takes f ≤ as.length →
    render s.mem f (as.map (argOf s)) = Rend.of (said s f as) (takes f)
  | [], _, _, _ => rfl
  | .lit l :: f, as, hx, hn => by
    have := render_said inv f as hx (by simpa [takes] using hn)
    simp only [render, this, said, takes]
    cases said s f as <;> simp [Rend.cons, Rend.of]
  | .bad :: _, _, _, _ => rfl
  | .arg :: f, [], _, hn => by simp [takes] at hn
  | .arg :: f, x :: as, hx, hn => by
    have := render_said inv f as (fun y hy => hx y (by simp [hy])) (by simp [takes] at hn; omega)
    simp only [List.map_cons, render, (argOf_ok inv (hx x (by simp))).2, this, said, takes]
    cases said s f as <;> simp [Rend.cons, Rend.of, Nat.add_comm]

/-! ### the member functions -/

/-- the empty text on a shared block (or the static one) is excluded -/
def NotVoid (d : SD) (t : Option (List Nat)) : Prop := t ≠ some [] ∨ d.size ≠ 0 ∨ ¬ d.isShared

theorem appendFormat_ok {cls m o p d f as al} {r : Option (List Nat)} {n : Nat} (h : WF cls m (plus o p)) (hb : Bd o) (hd : m p = some d) (hf : Fresh m p al) (ha : ∀ x ∈ as, ArgOk o x)
    (hr : render m f as = Rend.of r n) (hv : NotVoid d r) :
    Post cls o m (appendFormat cls true m p f as al)
      (fun hr d' => SameLock d d' ∧ (hr = .ok → d'.buf d'.size = 0) ∧ (¬ d.isShared → d'.enc = d.enc) ∧
        ((∃ t, r = some t ∧ hr = .ok ∧ d'.text = d.text ++ t) ∨ (r = none ∧ hr = .invalidArg ∧ d' = d) ∨ (hr = .oom ∧ al = none ∧ d' = d)))
      (fun d' => d.isLocked ∧ d' = d ∧ ∃ t, r = some t ∧ d.cap < d.size + t.length) := by
  unfold appendFormat
  rw [hd]; dsimp only
  rw [hr]
  cases r with
  | none =>
    exact ⟨Loc.refl h, d, hd, sameLock_refl h hd, (fun e => by cases e), fun _ => rfl, .inr (.inl ⟨rfl, rfl, rfl⟩)⟩
  | some t =>
    simp only [Rend.of] at hr ⊢
    rcases lockBuffer_ok h hb hd hf (cap := d.size + t.length) with ⟨e, ha, _⟩ | ⟨e, hl, hc⟩ | ⟨e, hs0, _, _, _, hsh⟩ | ⟨m2, q, d2, e, L2, K⟩
    · rw [e]; exact ⟨Loc.refl h, d, hd, sameLock_refl h hd, (fun e => by cases e), fun _ => rfl, .inr (.inr ⟨rfl, ha, rfl⟩)⟩
    · rw [e]; exact ⟨Loc.refl h, d, hd, hl, rfl, t, rfl, hc⟩
    · exfalso
      rcases hv with h1 | h1 | h1
      · exact h1 (by rw [List.eq_nil_of_length_eq_zero (l := t) (by omega)])
      · exact h1 hs0
      · exact h1 hsh
    · rw [e]; dsimp only
      have hneg := (lock_unlock K.ref).1
      have oq := (locked_sole L2.wf K.get K.nz hneg).1
      have hany : (as.take n).any (·.into q) = false := by
        rw [List.any_eq_false]
        intro x hx
        have := ha x (List.mem_of_mem_take hx)
        cases x with
        | val l => simp [Arg.into]
        | ptr a off => simp only [Arg.into, beq_iff_eq]; intro e; subst e; simp only [ArgOk] at this; omega
      rw [if_neg (by rw [hany]; simp), render_frame L2.frame f as ha, hr]; dsimp only
      rw [if_neg (Nat.lt_irrefl _)]
      have hroom := K.room
      obtain ⟨B, eB, B1, B2⟩ := copyIn_ok (src := .ext (t ++ [0])) (off := d.size) K.nz K.get (by simp only [Ptr.len, List.length_append, List.length_cons, List.length_nil]; omega) trivial
      rw [eB]; dsimp only
      obtain ⟨m3, d3, e3, L3, g3, s3, z3, k3, sl3, en3, _⟩ := fill_ok L2 K B (d.size + t.length) K.room
      rw [e3]
      refine ⟨L3, d3, g3, sl3, fun _ => by rw [s3]; exact z3, fun hh => by rw [en3]; exact (K.excl hh).2.1, .inl ⟨t, rfl, rfl, ?_⟩⟩
      have ht : t = (List.range t.length).map (fun j => (t ++ [0]).getD j 0) := by
        apply List.ext_getElem?
        intro k
        by_cases hk : k < t.length
        · rw [List.getElem?_map, List.getElem?_range hk]
          simp [List.getD, List.getElem?_append_left hk, List.getElem?_eq_getElem hk]
        · rw [List.getElem?_eq_none (by omega), List.getElem?_eq_none (by simp; omega)]
      have := text_append (d := d) (d' := d3) (n := t.length) (c := fun j => (t ++ [0]).getD j 0) s3 ?_ ?_
      · rw [this, ← ht]
      · intro k hk
        rw [k3 k (by omega), B2 k (by omega)]; exact K.buf k hk
      · intro i hi
        rw [k3 _ (by omega), B1 i (by simp only [Ptr.len, List.length_append, List.length_cons, List.length_nil]; omega)]; rfl

theorem format_ok {cls m o p d f as al} {r : Option (List Nat)} {n : Nat} (h : WF cls m (plus o p)) (hb : Bd o) (hd : m p = some d) (hf : Fresh m p al) (ha : ∀ x ∈ as, ArgOk o x)
    (hr : render m f as = Rend.of r n) (hv : r ≠ some [] ∨ ¬ d.isShared) :
    Post cls o m (format cls true m p f as al)
      (fun hr d' => SameLock d d' ∧ d'.buf d'.size = 0 ∧
        ((∃ t, r = some t ∧ hr = .ok ∧ d'.text = t) ∨ (r = none ∧ hr = .invalidArg ∧ d'.text = []) ∨ (hr = .oom ∧ al = none ∧ d'.text = [])))
      (fun d' => d.isLocked ∧ d'.text = [] ∧ SameLock d d' ∧ ∃ t, r = some t ∧ d.cap < t.length) := by
  unfold format
  obtain ⟨m1, p1, d1, e1, L1, g1, s1, b1, sl1, en1, sh1, ex1, ne1⟩ := clear_ok h hb hd
  rw [e1]; dsimp only
  have t1 : d1.text = [] := text_empty.2 s1
  have hf1 : Fresh m1 p1 al := by
    refine fresh_clear h hd hf (fun hh => (sh1 hh).1) (fun hh => ?_) ne1
    obtain ⟨a, b⟩ := ex1 hh
    exact ⟨a, d1, by rw [← a]; exact g1, by rw [b]; exact hh⟩
  have hv1 : NotVoid d1 r := by
    rcases hv with h1 | h1
    · exact .inl h1
    · refine .inr (.inr ?_); rw [(ex1 h1).2]; exact h1
  have := appendFormat_ok (f := f) (as := as) L1.wf hb g1 hf1 ha (by rw [render_frame L1.frame f as ha]; exact hr) hv1
  have slt : ∀ {x : SD}, SameLock d1 x → SameLock d x := by
    intro x hx
    unfold SameLock at *
    split
    · rename_i hh; rw [if_pos hh] at sl1; rw [if_pos (by omega)] at hx; omega
    · rename_i hh; rw [if_neg hh] at sl1; rw [if_neg (by omega)] at hx; omega
  generalize appendFormat cls true m1 p1 f as al = R at this ⊢
  unfold Post at *
  match R, this with
  | .thr m' p', this =>
    dsimp only at this ⊢
    obtain ⟨L, d', g, hl, rfl, t, ht, hc⟩ := this
    have hns : ¬ d.isShared := by
      intro hh; have := (sh1 hh).2; rw [this] at hl; simp [SD.isLocked, emptySD, imax] at hl
    have hd1 := (ex1 hns).2
    refine ⟨L1.trans L, d', g, ?_, t1, sl1, t, ht, ?_⟩
    · rw [hd1] at hl; exact hl
    · rw [s1] at hc; rw [hd1] at hc; simpa using hc
  | .ret hr' m' p', this =>
    dsimp only at this ⊢
    obtain ⟨L, d', g, hsl, hz, hen, hh⟩ := this
    refine ⟨L1.trans L, d', g, slt hsl, ?_, ?_⟩
    · rcases hh with ⟨_, _, hok, _⟩ | ⟨_, _, rfl⟩ | ⟨_, _, rfl⟩
      · exact hz hok
      · rw [s1]; exact b1
      · rw [s1]; exact b1
    · rcases hh with ⟨t, h1, h2, h3⟩ | ⟨h1, h2, rfl⟩ | ⟨h1, h2, rfl⟩
      · exact .inl ⟨t, h1, h2, by rw [h3, t1]; rfl⟩
      · exact .inr (.inl ⟨h1, h2, t1⟩)
      · exact .inr (.inr ⟨h1, h2, t1⟩)

/-! ### C92 -/

/-- common part of the theorems -/
theorem call_facts {cls s i f as al} (inv : Inv cls s) {p : Nat} {d : SD} (hp : s.hs[i]? = some (some p)) (hd : s.mem p = some d) (w : WF cls s.mem (plus (cnt (s.hs.set i none)) p)) (hal : AlOk s i al)
    (ha : ∀ x ∈ as, ArgValid s i x) (hn : takes f ≤ as.length) :
    Fresh s.mem p al ∧ (∀ x ∈ as.map (argOf s), ArgOk (cnt (s.hs.set i none)) x) ∧
      render s.mem f (as.map (argOf s)) = Rend.of (said s f as) (takes f) := by
  refine ⟨fresh_of hp hd w hal, ?_, render_said inv f as ha hn⟩
  intro x hx
  obtain ⟨y, hy, rfl⟩ := List.mem_map.1 hx
  exact (argOf_ok inv (ha y hy)).1

/-- `AppendFormat` in a state that satisfies the invariant -/
theorem append_inv {cls s i d f as al} (inv : Inv cls s) (hf : Few s) (hi : blk s i = some d) (hal : AlOk s i al) (ha : ∀ x ∈ as, ArgValid s i x) (hn : takes f ≤ as.length) (hv : NotVoid d (said s f as)) :
    WPost cls s i (fmtStep cls true false s i f as al)
      (fun hr d' => SameLock d d' ∧ (hr = .ok → d'.buf d'.size = 0) ∧
        ((∃ t, said s f as = some t ∧ hr = .ok ∧ d'.text = d.text ++ t) ∨ (said s f as = none ∧ hr = .invalidArg ∧ d' = d) ∨ (hr = .oom ∧ al = none ∧ d' = d)))
      (fun d' => d.isLocked ∧ d' = d ∧ ∃ t, said s f as = some t ∧ d.cap < d.size + t.length) := by
  obtain ⟨a, ha'⟩ := live_of_blk hi
  have hd := hi; rw [blk_eq ha'] at hd
  have w : WF cls s.mem (plus (cnt (s.hs.set i none)) a) := by rw [← cnt_split ha']; exact inv
  obtain ⟨h1, h2, h3⟩ := call_facts inv ha' hd w hal ha hn
  have := appendFormat_ok w (few_bd0 hf i) hd h1 h2 h3 hv
  have := onHandle_ok (f := fun m p => appendFormat cls true m p f (as.map (argOf s)) al) ha' this
  unfold fmtStep; simp only [Bool.false_eq_true, if_false]
  exact this.mono (fun hr x h => ⟨h.1, h.2.1, h.2.2.2⟩) (fun x h => h)

theorem format_inv {cls s i d f as al} (inv : Inv cls s) (hf : Few s) (hi : blk s i = some d) (hal : AlOk s i al) (ha : ∀ x ∈ as, ArgValid s i x) (hn : takes f ≤ as.length)
    (hv : said s f as ≠ some [] ∨ ¬ d.isShared) :
    WPost cls s i (fmtStep cls true true s i f as al)
      (fun hr d' => SameLock d d' ∧ d'.buf d'.size = 0 ∧
        ((∃ t, said s f as = some t ∧ hr = .ok ∧ d'.text = t) ∨ (said s f as = none ∧ hr = .invalidArg ∧ d'.text = []) ∨ (hr = .oom ∧ al = none ∧ d'.text = [])))
      (fun d' => d.isLocked ∧ d'.text = [] ∧ SameLock d d' ∧ ∃ t, said s f as = some t ∧ d.cap < t.length) := by
  obtain ⟨a, ha'⟩ := live_of_blk hi
  have hd := hi; rw [blk_eq ha'] at hd
  have w : WF cls s.mem (plus (cnt (s.hs.set i none)) a) := by rw [← cnt_split ha']; exact inv
  obtain ⟨h1, h2, h3⟩ := call_facts inv ha' hd w hal ha hn
  have := format_ok w (few_bd0 hf i) hd h1 h2 h3 hv
  exact onHandle_ok (f := fun m p => format cls true m p f (as.map (argOf s)) al) ha' this

/-- the excluded case is undefined: the terminator is written into the static block -/
theorem append_void {cls byVal m o p d f as al} {n : Nat} (h : WF cls m (plus o p)) (hb : Bd o) (hd : m p = some d) (hf : Fresh m p al) (hr : render m f as = .txt [] n) (hz : d.size = 0) (hs : d.isShared)
    : appendFormat cls byVal m p f as al = .ub := by
  unfold appendFormat
  rw [hd]; dsimp only
  rw [hr]; dsimp only
  rw [hz]
  have key : ∃ m', lockBuffer cls m p (0 + ([] : List Nat).length) al = .ret .ok m' 0 := by
    unfold lockBuffer; rw [hd]; dsimp only
    rw [hz]
    simp only [Nat.add_zero, List.length_nil, Nat.lt_irrefl, if_false, true_and]
    by_cases hc : d.cap = 0
    · rw [if_pos hc]
      by_cases hp : p = 0
      · subst hp; exact ⟨m, rfl⟩
      · have := (h.blk p d hp hd).1; omega
    · rw [if_neg hc, if_pos hs]
      have e : cloneData cls m d 0 al = some (m, 0) := by
        unfold cloneData; dsimp only; rw [hz]; rfl
      rw [e]; dsimp only
      obtain ⟨m', e1, w, _⟩ := release_ok h hb
      rw [e1]; dsimp only
      refine ⟨m', ?_⟩
      unfold doLock; rw [w.zero]; dsimp only; rw [if_pos (by simp [SD.isReadOnly, emptySD])]
  obtain ⟨m', e⟩ := key
  rw [e]; dsimp only
  split
  · rfl
  · split
    · rfl
    · rename_i he
      exact absurd he (render_not_neg m' hr)
    · split
      · rfl
      · have : ∀ l, copyIn m' 0 0 (.ext l) = none := by
          intro l; unfold copyIn
          split
          · rfl
          · rw [if_pos rfl]
        rw [this]

theorem format_void {cls byVal m o p d f as al} {n : Nat} (h : WF cls m (plus o p)) (hb : Bd o) (hd : m p = some d) (hf : Fresh m p al) (ha : ∀ x ∈ as, ArgOk o x) (hr : render m f as = .txt [] n) (hs : d.isShared)
    : format cls byVal m p f as al = .ub := by
  unfold format
  obtain ⟨m1, p1, d1, e1, L1, g1, s1, b1, sl1, en1, sh1, ex1, ne1⟩ := clear_ok h hb hd
  rw [e1]; dsimp only
  obtain ⟨z1, z2⟩ := sh1 hs
  have hf1 : Fresh m1 p1 al := by
    refine fresh_clear h hd hf (fun hh => (sh1 hh).1) (fun hh => absurd hs hh) ne1
  exact append_void L1.wf hb g1 hf1 (by rw [render_frame L1.frame f as ha]; exact hr) s1 (by rw [z2]; simp [SD.isShared, emptySD, imax])

theorem ub_handle {s : St} {i p : Nat} {f : Mem → Nat → Res} (hp : s.hs[i]? = some (some p)) (h : f s.mem p = .ub) : onHandle s i f = .ub := by
  unfold onHandle; rw [hp]; dsimp only; rw [h]

/-- undefined: the empty text on a String that is empty and shared or static -/
theorem append_void_inv {cls byVal s i d f as al} (inv : Inv cls s) (hf : Few s) (hi : blk s i = some d) (hal : AlOk s i al) (ha : ∀ x ∈ as, ArgValid s i x) (hn : takes f ≤ as.length)
    (hv : said s f as = some []) (hz : d.size = 0) (hs : d.isShared) : fmtStep cls byVal false s i f as al = .ub := by
  obtain ⟨a, ha'⟩ := live_of_blk hi
  have hd := hi; rw [blk_eq ha'] at hd
  have w : WF cls s.mem (plus (cnt (s.hs.set i none)) a) := by rw [← cnt_split ha']; exact inv
  obtain ⟨h1, h2, h3⟩ := call_facts inv ha' hd w hal ha hn
  rw [hv] at h3
  exact ub_handle ha' (by rw [if_neg (by simp)]; exact append_void w (few_bd0 hf i) hd h1 h3 hz hs)

theorem format_void_inv {cls byVal s i d f as al} (inv : Inv cls s) (hf : Few s) (hi : blk s i = some d) (hal : AlOk s i al) (ha : ∀ x ∈ as, ArgValid s i x) (hn : takes f ≤ as.length)
    (hv : said s f as = some []) (hs : d.isShared) : fmtStep cls byVal true s i f as al = .ub := by
  obtain ⟨a, ha'⟩ := live_of_blk hi
  have hd := hi; rw [blk_eq ha'] at hd
  have w : WF cls s.mem (plus (cnt (s.hs.set i none)) a) := by rw [← cnt_split ha']; exact inv
  obtain ⟨h1, h2, h3⟩ := call_facts inv ha' hd w hal ha hn
  rw [hv] at h3
  exact ub_handle ha' (by rw [if_pos rfl]; exact format_void w (few_bd0 hf i) hd h1 h2 h3 hs)

theorem frun_inv {cls s} (r : FRun cls s) : Inv cls s := by
  induction r with
  | init => exact inv_init cls
  | op _ hv hf e ih => 
    obtain ⟨x, ex, i, _⟩ := step_safe ih hf hv
    rw [e] at ex; cases ex; exact i
  | @fmt s s' i f as al set _ hl hal ha hn hf e ih =>
    obtain ⟨p, d, _, _, hi, _⟩ := handle_facts ih hl
    have hinv : ∀ {P Q}, WPost cls s i (fmtStep cls true set s i f as al) P Q → Inv cls s' := by
      intro P Q h
      generalize fmtStep cls true set s i f as al = R at h e
      cases R with
      | ub => cases e
      | thr x => cases e; exact h.1
      | ret hr x => cases e; exact h.1
    cases set with
    | false =>
      by_cases hv : NotVoid d (said s f as)
      · exact hinv (append_inv ih hf hi hal ha hn hv)
      · unfold NotVoid at hv
        rw [not_or, not_or, Decidable.not_not, Decidable.not_not] at hv
        rw [append_void_inv ih hf hi hal ha hn hv.1 hv.2.1 (Classical.not_not.1 hv.2.2)] at e
        cases e
    | true =>
      by_cases hv : said s f as ≠ some [] ∨ ¬ d.isShared
      · exact hinv (format_inv ih hf hi hal ha hn hv)
      · rw [not_or, Decidable.not_not] at hv
        rw [format_void_inv ih hf hi hal ha hn hv.1 (Classical.not_not.1 hv.2)] at e
        cases e

/-! ### the theorems -/

/-- `AppendFormat` on Windows, after any history: with proper arguments, unless the text to append is empty and the String is empty and shared (or was never given a text), the call appends exactly the formatted text, zero-terminated, and touches no
other String; an invalid format or a failed allocation leave the String as it was; it throws exactly on a locked String whose buffer is too small.
Missing for the full claim (any proper call, on any system): `C92_empty_fails`, `C92_own_fails`, `C92_va_list_fails`. -/
theorem C92_append_partial {cls s i d f as al} (r : FRun cls s) (hf : Few s) (hi : blk s i = some d) (hal : AlOk s i al) (ha : ∀ x ∈ as, ArgValid s i x) (hn : takes f ≤ as.length) (hv : NotVoid d (said s f as)) :
    WPost cls s i (fmtStep cls true false s i f as al)
      (fun hr d' => SameLock d d' ∧ (hr = .ok → d'.buf d'.size = 0) ∧
        ((∃ t, said s f as = some t ∧ hr = .ok ∧ d'.text = d.text ++ t) ∨ (said s f as = none ∧ hr = .invalidArg ∧ d' = d) ∨ (hr = .oom ∧ al = none ∧ d' = d)))
      (fun d' => d.isLocked ∧ d' = d ∧ ∃ t, said s f as = some t ∧ d.cap < d.size + t.length) :=
  append_inv (frun_inv r) hf hi hal ha hn hv

/-- `Format` on Windows: on success the text is exactly the formatted text. On failure the String is empty (its text is lost), terminated, and no other String is touched. -/
theorem C92_format_partial {cls s i d f as al} (r : FRun cls s) (hf : Few s) (hi : blk s i = some d) (hal : AlOk s i al) (ha : ∀ x ∈ as, ArgValid s i x) (hn : takes f ≤ as.length)
    (hv : said s f as ≠ some [] ∨ ¬ d.isShared) :
    WPost cls s i (fmtStep cls true true s i f as al)
      (fun hr d' => SameLock d d' ∧ d'.buf d'.size = 0 ∧
        ((∃ t, said s f as = some t ∧ hr = .ok ∧ d'.text = t) ∨ (said s f as = none ∧ hr = .invalidArg ∧ d'.text = []) ∨ (hr = .oom ∧ al = none ∧ d'.text = [])))
      (fun d' => d.isLocked ∧ d'.text = [] ∧ SameLock d d' ∧ ∃ t, said s f as = some t ∧ d.cap < t.length) :=
  format_inv (frun_inv r) hf hi hal ha hn hv

/-- The excluded case: formatting to the empty text – `Format("%s", "")` on a String never given a text, or on a shared one – stores the terminator into the constant static empty block: undefined behaviour, whatever the history and the allocator. -/
theorem C92_empty_fails {cls byVal s i d f as al} (r : FRun cls s) (hf : Few s) (hi : blk s i = some d) (hal : AlOk s i al) (ha : ∀ x ∈ as, ArgValid s i x) (hn : takes f ≤ as.length)
    (hv : said s f as = some []) (hs : d.isShared) :
    fmtStep cls byVal true s i f as al = .ub ∧ (d.size = 0 → fmtStep cls byVal false s i f as al = .ub) :=
  ⟨format_void_inv (frun_inv r) hf hi hal ha hn hv hs, fun hz => append_void_inv (frun_inv r) hf hi hal ha hn hv hz hs⟩

theorem append_va {cls m o p d f as al t n} (h : WF cls m (plus o p)) (hb : Bd o) (hd : m p = some d) (hf : Fresh m p al) (hr : render m f as = .txt t n) (hn : 0 < n) (hal : al ≠ none) (hl : ¬ d.isLocked) :
    appendFormat cls false m p f as al = .ub := by
  unfold appendFormat
  rw [hd]; dsimp only
  rw [hr]; dsimp only
  rcases lockBuffer_ok h hb hd hf (cap := d.size + t.length) with ⟨e, ha, _⟩ | ⟨e, hl', hc⟩ | ⟨_, _, m', e, _⟩ | ⟨m2, q, d2, e, L2, K⟩
  · exact absurd ha hal
  · exact absurd hl' hl
  · rw [e]; dsimp only; rw [if_pos (.inl ⟨rfl, hn⟩)]
  · rw [e]; dsimp only; rw [if_pos (.inl ⟨rfl, hn⟩)]

/-- Where a `va_list` cannot be used twice (everywhere but on Windows, the C standard's rule), every call that takes an argument and gets its memory is undefined: the list is passed to `GetStringFormatLength` and then to `FormatStringV`
without `va_copy`. -/
theorem C92_va_list_fails {cls s i d f as al set} (r : FRun cls s) (hf : Few s) (hi : blk s i = some d) (hal : AlOk s i al) (ha : ∀ x ∈ as, ArgValid s i x) (hn : takes f ≤ as.length)
    (hv : said s f as ≠ none) (ht : 0 < takes f) (hm : al ≠ none) (hl : ¬ d.isLocked) : fmtStep cls false set s i f as al = .ub := by
  have inv := frun_inv r
  obtain ⟨a, ha'⟩ := live_of_blk hi
  have hd := hi; rw [blk_eq ha'] at hd
  have w : WF cls s.mem (plus (cnt (s.hs.set i none)) a) := by rw [← cnt_split ha']; exact inv
  obtain ⟨h1, h2, h3⟩ := call_facts inv ha' hd w hal ha hn
  obtain ⟨t, et⟩ := Option.ne_none_iff_exists'.1 hv
  rw [et] at h3
  refine ub_handle ha' ?_
  cases set with
  | false => rw [if_neg (by simp)]; exact append_va w (few_bd0 hf i) hd h1 h3 ht hm hl
  | true =>
    rw [if_pos rfl]
    unfold format
    obtain ⟨m1, p1, d1, e1, L1, g1, s1, b1, sl1, en1, sh1, ex1, ne1⟩ := clear_ok w (few_bd0 hf i) hd
    rw [e1]; dsimp only
    have hf1 : Fresh m1 p1 al := by
      refine fresh_clear w hd h1 (fun hh => (sh1 hh).1) (fun hh => ?_) ne1
      obtain ⟨a, b⟩ := ex1 hh
      exact ⟨a, d1, by rw [← a]; exact g1, by rw [b]; exact hh⟩
    refine append_va L1.wf (few_bd0 hf i) g1 hf1 (by rw [render_frame L1.frame f _ h2]; exact h3) ht hm ?_
    by_cases hs : d.isShared
    · rw [(sh1 hs).2]; simp [SD.isLocked, emptySD, imax]
    · rw [(ex1 hs).2]; exact hl

/-! ### a String's own text as argument -/

/-- a pointer into the text of handle `i` itself -/
def OwnArg (i : Nat) (d : SD) : FArg → Prop
  | .val _ => False
  | .of h off => h = i ∧ off ≤ d.size ∧ d.buf d.size = 0

theorem readZ_some {d : SD} {z : Nat} (hz : d.buf z = 0) : ∀ (n k : Nat), k ≤ z → z < k + n → ∃ l, readZ d k n = some l
  | 0, k, h1, h2 => by omega
  | n + 1, k, h1, h2 => by
    unfold readZ
    split
    · exact ⟨_, rfl⟩
    · by_cases e : k = z
      · subst e; contradiction
      · obtain ⟨l, hl⟩ := readZ_some hz n (k + 1) (by omega) (by omega)
        exact ⟨_, by rw [hl]; rfl⟩

theorem render_some {m : Mem} {s : St} : ∀ (f : List Piece) (as : List FArg), (∀ x ∈ as, ∃ l, readArg m (argOf s x) = some l) → takes f ≤ as.length → said s f as ≠ none →
    ∃ t, render m f (as.map (argOf s)) = .txt t (takes f)
  | [], _, _, _, _ => ⟨_, rfl⟩
  | .lit l :: f, as, hx, hn, hs => by
    obtain ⟨t, ht⟩ := render_some f as hx (by simpa [takes] using hn) (by intro e; simp [said, e] at hs)
    exact ⟨l ++ t, by simp [render, ht, Rend.cons, takes]⟩
  | .bad :: _, _, _, _, hs => by simp [said] at hs
  | .arg :: f, [], _, hn, _ => by simp [takes] at hn
  | .arg :: f, x :: as, hx, hn, hs => by
    obtain ⟨t, ht⟩ := render_some f as (fun y hy => hx y (by simp [hy])) (by simp [takes] at hn; omega) (by intro e; simp [said, e] at hs)
    obtain ⟨l, hl⟩ := hx x (by simp)
    exact ⟨l ++ t, by simp [render, hl, ht, Rend.cons, takes, Nat.add_comm]⟩

theorem append_own {cls byVal m o p d f as al t n off} (h : WF cls m (plus o p)) (hd : m p = some d) (hr : render m f as = .txt t n) (hal : al ≠ none) (hl : ¬ d.isLocked) (hs : ¬ d.isShared)
    (hm : Arg.ptr p off ∈ as.take n) : appendFormat cls byVal m p f as al = .ub := by
  obtain ⟨hp, he, _⟩ := shared_iff h hd hs
  have hb := (h.blk p d hp hd).1
  unfold appendFormat
  rw [hd]; dsimp only
  rw [hr]; dsimp only
  have key : ∃ m' q, lockBuffer cls m p (d.size + t.length) al = .ret .ok m' q ∧ (q = p ∨ m' p = none) := by
    unfold lockBuffer; rw [hd]; dsimp only
    rw [if_neg (Nat.not_lt.2 (Nat.le_add_right _ _)), if_neg (by omega), if_neg hs]
    by_cases hg : d.cap < d.size + t.length
    · rw [if_pos hg, if_neg hl]
      cases al with
      | none => exact absurd rfl hal
      | some qj =>
        obtain ⟨q, j⟩ := qj
        unfold reallocData; rw [if_neg (by omega)]; dsimp only
        rw [doLock_excl (upd_eq _ _ _) (by exact he)]
        by_cases e : q = p
        · exact ⟨_, _, rfl, .inl e⟩
        · exact ⟨_, _, rfl, .inr (by rw [upd_ne _ _ (Ne.symm e), upd_ne _ _ (Ne.symm e), upd_eq])⟩
    · rw [if_neg hg, doLock_excl hd he]
      exact ⟨_, _, rfl, .inl rfl⟩
  obtain ⟨m', q, e, hq⟩ := key
  rw [e]; dsimp only
  split
  · rfl
  · rename_i hno
    rcases hq with rfl | hq
    · exfalso
      apply hno
      right
      rw [List.any_eq_true]
      exact ⟨_, hm, by simp [Arg.into]⟩
    · rw [render_dead hq hr hm]

/-- A String's own text as argument of its own `Format` or `AppendFormat` – `s.AppendFormat("%s", s.GetConstString())` on an unshared String – is undefined as soon as the memory is there: `LockBuffer` has freed the text, or the text is
printed over itself. -/
theorem C92_own_fails {cls byVal s i d f as al set x} (r : FRun cls s) (hf : Few s) (hi : blk s i = some d) (ha : ∀ x ∈ as, ArgValid s i x ∨ OwnArg i d x) (hn : takes f ≤ as.length)
    (hv : said s f as ≠ none) (hx : x ∈ as.take (takes f)) (ho : OwnArg i d x) (hm : al ≠ none) (hl : ¬ d.isLocked) (hs : ¬ d.isShared) : fmtStep cls byVal set s i f as al = .ub := by
  have inv := frun_inv r
  obtain ⟨a, ha'⟩ := live_of_blk hi
  have hd := hi; rw [blk_eq ha'] at hd
  have w : WF cls s.mem (plus (cnt (s.hs.set i none)) a) := by rw [← cnt_split ha']; exact inv
  have hsz := w.size_le hd
  have own : ∀ y, OwnArg i d y → ∃ off, argOf s y = .ptr a off ∧ off ≤ d.size ∧ d.buf d.size = 0 := by
    intro y hy
    cases y with
    | val l => exact hy.elim
    | of h off => obtain ⟨rfl, h2, h3⟩ := hy; exact ⟨off, by simp only [argOf, ha'], h2, h3⟩
  obtain ⟨off, ex, _, _⟩ := own x ho
  have hmem : Arg.ptr a off ∈ (as.map (argOf s)).take (takes f) := by
    rw [← List.map_take, ← ex]; exact List.mem_map_of_mem hx
  refine ub_handle ha' ?_
  cases set with
  | false =>
    rw [if_neg (by simp)]
    obtain ⟨t, ht⟩ := render_some (m := s.mem) f as (by
      intro y hy
      rcases ha y hy with h1 | h1
      · exact ⟨_, (argOf_ok inv h1).2⟩
      · obtain ⟨o1, e1, h2, h3⟩ := own y h1
        rw [e1]; simp only [readArg, hd]
        exact readZ_some h3 _ _ h2 (by omega)) hn hv
    exact append_own w hd ht hm hl hs hmem
  | true =>
    rw [if_pos rfl]
    unfold format
    obtain ⟨m1, p1, d1, e1, L1, g1, s1, b1, sl1, en1, sh1, ex1, ne1⟩ := clear_ok w (few_bd0 hf i) hd
    rw [e1]; dsimp only
    obtain ⟨rfl, hd1⟩ := ex1 hs
    obtain ⟨t, ht⟩ := render_some (m := m1) f as (by
      intro y hy
      rcases ha y hy with h1 | h1
      · rw [readArg_frame L1.frame (argOf_ok inv h1).1]; exact ⟨_, (argOf_ok inv h1).2⟩
      · obtain ⟨o1, e2, h2, h3⟩ := own y h1
        rw [e2]; simp only [readArg, g1]
        refine readZ_some (z := d.size) ?_ _ _ h2 ?_
        · rw [hd1]; dsimp only; split
          · rfl
          · exact h3
        · rw [hd1]; dsimp only; omega) hn hv
    exact append_own L1.wf g1 ht hm (by rw [hd1]; exact hl) (by rw [hd1]; exact hs) hmem

/-! ### cases -/

theorem frun_of_run {cls ops s'} : ∀ {s}, Run cls s ops s' → FRun cls s → FRun cls s' := by
  intro s r
  induction r with
  | nil => exact id
  | cons hv hf hs _ ih => intro h; exact ih (.op h hv hf hs)

def outSeen (o : Out) (i : Nat) : Option (Hr × Option Seen) :=
  match o with
  | .ret hr s => some (hr, seen s i)
  | _ => none

/-- "x=" ++ "%s" ++ "%s" with the text "abc" of handle 0 and the number 42, formatted into and appended to handle 2 ("z"), whose block is its own: all hypotheses of `C92_append_partial` and `C92_format_partial` are met -/
theorem C92_example : ∃ s d, FRun 0 s ∧ Few s ∧ blk s 2 = some d ∧ d.text = [122] ∧ AlOk s 2 (at_ 3) ∧ (∀ x ∈ [FArg.of 0 1, .val [52, 50]], ArgValid s 2 x) ∧
    said s [.lit [120, 61], .arg, .arg] [FArg.of 0 1, .val [52, 50]] = some [120, 61, 98, 99, 52, 50] ∧ NotVoid d (said s [.lit [120, 61], .arg, .arg] [FArg.of 0 1, .val [52, 50]]) ∧
    outSeen (fmtStep 0 true false s 2 [.lit [120, 61], .arg, .arg] [FArg.of 0 1, .val [52, 50]] (at_ 3)) 2 = some (.ok, some ⟨[122, 120, 61, 98, 99, 52, 50], 0, 15, 0, 1⟩) ∧
    outSeen (fmtStep 0 true true s 2 [.lit [120, 61], .arg, .arg] [FArg.of 0 1, .val [52, 50]] (at_ 3)) 2 = some (.ok, some ⟨[120, 61, 98, 99, 52, 50], 0, 15, 0, 1⟩) := by
  obtain ⟨s, r, h⟩ := witness (cls := 0) (ops := abc2 ++ [.new, .setStr 2 (.ext [122]) (at_ 2)])
    (fun s => decide (s.hs.length < 100) && ((blk s 2).any fun d : SD => decide (d.text = [122])) && ((blk s 0).any fun d : SD => decide (1 ≤ d.size ∧ d.buf d.size = 0)) && alB s (at_ 3) &&
      decide (said s [.lit [120, 61], .arg, .arg] [FArg.of 0 1, .val [52, 50]] = some [120, 61, 98, 99, 52, 50]) &&
      decide (outSeen (fmtStep 0 true false s 2 [.lit [120, 61], .arg, .arg] [FArg.of 0 1, .val [52, 50]] (at_ 3)) 2 = some (.ok, some ⟨[122, 120, 61, 98, 99, 52, 50], 0, 15, 0, 1⟩)) &&
      decide (outSeen (fmtStep 0 true true s 2 [.lit [120, 61], .arg, .arg] [FArg.of 0 1, .val [52, 50]] (at_ 3)) 2 = some (.ok, some ⟨[120, 61, 98, 99, 52, 50], 0, 15, 0, 1⟩))) (by decide +kernel)
  simp only [Bool.and_eq_true, decide_eq_true_eq] at h
  obtain ⟨⟨⟨⟨⟨⟨h1, h2⟩, h3⟩, h4⟩, h5⟩, h6⟩, h7⟩ := h
  cases e : blk s 2 with
  | none => rw [e] at h2; cases h2
  | some d =>
    cases e' : blk s 0 with
    | none => rw [e'] at h3; cases h3
    | some d' =>
      rw [e] at h2; rw [e'] at h3
      simp only [Option.any_some, decide_eq_true_eq] at h2 h3
      refine ⟨s, d, frun_of_run r .init, by unfold Few imax; omega, e, h2, alOk_of_B h4, ?_, h5, .inl (by rw [h5]; simp), h6, h7⟩
      intro x hx
      simp only [List.mem_cons, List.not_mem_nil, or_false] at hx
      rcases hx with rfl | rfl
      · exact ⟨⟨d', e', h3.1, h3.2⟩, .inl (by decide)⟩
      · trivial

/-- `String s; s.Format("%s", "")` is undefined -/
theorem C92_empty_case : ∃ s d, FRun 0 s ∧ Few s ∧ blk s 0 = some d ∧ d.isShared ∧ d.size = 0 ∧ said s [.arg] [.val []] = some [] ∧
    fmtStep 0 true true s 0 [.arg] [.val []] none = .ub ∧ fmtStep 0 true false s 0 [.arg] [.val []] none = .ub := by
  obtain ⟨s, r, h⟩ := witness (cls := 0) (ops := [.new]) (fun s => decide (s.hs.length < 100) && (blk s 0).any fun d : SD => decide (1 < d.iRef ∧ d.size = 0)) (by decide +kernel)
  simp only [Bool.and_eq_true, decide_eq_true_eq] at h
  cases e : blk s 0 with
  | none => rw [e] at h; cases h.2
  | some d =>
    rw [e] at h
    simp only [Option.any_some, decide_eq_true_eq] at h
    have hf : Few s := by unfold Few imax; omega
    have R := frun_of_run r .init
    obtain ⟨h1, h2⟩ := C92_empty_fails (byVal := true) (f := [.arg]) (as := [.val []]) (al := none) R hf e (alOk_of_B rfl) (by intro x hx; simp only [List.mem_cons, List.not_mem_nil, or_false] at hx; subst hx; trivial)
      (by simp [takes]) rfl h.2.1
    exact ⟨s, d, R, hf, e, h.2.1, h.2.2, rfl, h1, h2 h.2.2⟩

/-- "abc", with itself as argument: `C92_own_fails` applies; with a number where a `va_list` is used up: `C92_va_list_fails` applies -/
theorem C92_own_case : ∃ s d, FRun 0 s ∧ Few s ∧ blk s 0 = some d ∧ ¬ d.isLocked ∧ ¬ d.isShared ∧ OwnArg 0 d (.of 0 0) ∧
    fmtStep 0 true false s 0 [.arg] [.of 0 0] (at_ 2) = .ub ∧ fmtStep 0 false true s 0 [.arg] [.val [52, 50]] (at_ 2) = .ub := by
  obtain ⟨s, r, h⟩ := witness (cls := 0) (ops := [.new, .setStr 0 (.ext [97, 98, 99]) (at_ 1)])
    (fun s => decide (s.hs.length < 100) && (blk s 0).any (fun d : SD => decide (d.iRef = 1 ∧ d.buf d.size = 0)) && alB s (at_ 2)) (by decide +kernel)
  simp only [Bool.and_eq_true, decide_eq_true_eq] at h
  cases e : blk s 0 with
  | none => rw [e] at h; cases h.1.2
  | some d =>
    rw [e] at h
    simp only [Option.any_some, decide_eq_true_eq] at h
    have hf : Few s := by unfold Few imax; omega
    have R := frun_of_run r .init
    have hl : ¬ d.isLocked := by unfold SD.isLocked; omega
    have hs : ¬ d.isShared := by unfold SD.isShared; omega
    have ho : OwnArg 0 d (.of 0 0) := ⟨rfl, Nat.zero_le _, h.1.2.2⟩
    refine ⟨s, d, R, hf, e, hl, hs, ho, ?_, ?_⟩
    · exact C92_own_fails (x := .of 0 0) R hf e (by intro x hx; simp only [List.mem_cons, List.not_mem_nil, or_false] at hx; subst hx; exact .inr ho) (by simp [takes]) (by simp [said]) (by simp [takes]) ho (by simp [at_]) hl hs
    · exact C92_va_list_fails R hf e (alOk_of_B h.2) (by intro x hx; simp only [List.mem_cons, List.not_mem_nil, or_false] at hx; subst hx; trivial) (by simp [takes]) (by simp [said]) (by simp [takes]) (by simp [at_]) hl

end Verif.StrHeap
