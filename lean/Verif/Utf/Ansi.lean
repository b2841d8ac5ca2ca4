import Verif.Utf.Props

/-!
C93: conversions from and to code pages (`aString`), src/YY/Base/Strings/StringTransform.cpp 122-361. Windows only: `WideCharToMultiByte` and `MultiByteToWideChar` are arbitrary functions with the documented calling convention.
The destination is the list of units and the capacity of Verif/Utf/Model.lean. Not modelled: a null destination (`E_POINTER`).
-/
namespace Verif.Utf

open Spec

/-! ### model -/

/-- `std::numeric_limits<int>::max()` -/
def intMax : Nat := 2147483647

/-- ERROR_INSUFFICIENT_BUFFER -/
def insufficient : Nat := 122

/-- The system's code pages: the conversion of a whole text from and to UTF-16, `none` if the call fails for a reason other than the size of the buffer (with error `err`). -/
structure Nls where
  toMulti : Nat → List Nat → Option (List Nat)
  toWide : Nat → List Nat → Option (List Nat)
  err : Nat

/-- what the system promises: a text that is not empty does not convert to the empty text (0 is the failure result), and other failures are not reported as ERROR_INSUFFICIENT_BUFFER -/
structure Nls.Ok (n : Nls) : Prop where
  multi : ∀ cp s o, s ≠ [] → n.toMulti cp s = some o → o ≠ []
  err : n.err ≠ insufficient

/-- one system call: the units written, the size needed (asked with an empty buffer; nothing is written), or 0 and an error -/
inductive Call where
  | wrote (o : List Nat)
  | size (k : Nat)
  | failed (e : Nat)

/-- both functions, with a buffer of `room` units -/
def sysConv (err : Nat) (o : Option (List Nat)) (room : Nat) : Call :=
  match o with
  | none => .failed err
  | some o => if room = 0 then .size o.length else if room < o.length then .failed insufficient else .wrote o

/-- outcome of a conversion; `dangling`: S_OK, but the destination's storage has been freed; `hang`: more than 64 rounds -/
inductive ARes where
  | ok (d : Dst)
  | oom (d : Dst)
  | err (e : Nat) (d : Dst)
  | unexpected (d : Dst)
  | dangling
  | hang
  | ub
deriving DecidableEq

/-- the loop of `Transform(u16StringLEView, aString*)` (174-209); `want` is `_cchDstBuffer` (a `uint64_t`), the number is a bound on the rounds -/
def toAnsiLoop (n : Nls) (g : Grow) (cp : Nat) (src : List Nat) : Nat → Nat → Dst → ARes
  | 0, _, _ => .hang
  | k + 1, want, d =>
    -- 176-179
    if 2 ^ 64 - 1 ≤ want then .oom d
    else
      -- 181-185
      match lock g d want with
      | none => .oom d
      | some d =>
        -- 187-191
        let room := if intMax < d.cap - d.buf.length then intMax else d.cap - d.buf.length
        -- 193-194: the result is added to the size
        match sysConv n.err (n.toMulti cp src) room with
        | .wrote o => if d.cap < d.buf.length + o.length then .ub else .ok { d with buf := d.buf ++ o }
        | .size _ => .ub
        | .failed e =>
          -- 201-208
          if e ≠ insufficient then .err e d else toAnsiLoop n g cp src k (d.cap * 2 % 2 ^ 64) d

/-- `Transform(u16StringLEView, aString*)` (154-212); `cp` is the destination's encoding -/
def u16toAnsi (n : Nls) (g : Grow) (cp : Nat) (src : List Nat) (d : Dst) : ARes :=
  if src = [] then .ok d
  else if intMax < src.length then .unexpected d
  else toAnsiLoop n g cp src 64 ((d.buf.length + src.length * 2) % 2 ^ 64) d

/-- `Transform(aStringView, u16StringLE*)` (287-311); `cp` is the source's encoding. The result 0 of a failed `MultiByteToWideChar` is used as a length (308-310). -/
def ansiTo16 (n : Nls) (g : Grow) (cp : Nat) (src : List Nat) (d : Dst) : ARes :=
  if src = [] then .ok d
  else if intMax < src.length then .unexpected d
  else
    match lock g d (d.buf.length + src.length) with
    | none => .oom d
    | some d =>
      match sysConv n.err (n.toWide cp src) src.length with
      | .wrote o => if d.cap < d.buf.length + o.length then .ub else .ok { d with buf := d.buf ++ o }
      | .size _ => .ub
      | .failed _ => .ok d

/-- a Unicode conversion as a step -/
def ARes.of : Res → ARes
  | .ok d => .ok d
  | .oom d => .oom d
  | .ub => .ub

/-- a conversion into an empty temporary `u16String` (or `u32String`), then `next`; a failure leaves the destination alone -/
def viaTmp (first : Dst → ARes) (next : List Nat → ARes) (d : Dst) : ARes :=
  match first ⟨[], 0⟩ with
  | .ok t => next t.buf
  | .oom _ => .oom d
  | .err e _ => .err e d
  | .unexpected _ => .unexpected d
  | .dangling => .ub
  | .hang => .hang
  | .ub => .ub

/-- `Transform(u8StringView, aString*)` (137-151) -/
def u8toAnsi (n : Nls) (g : Grow) (cp : Nat) (src : List Nat) (d : Dst) : ARes :=
  if src = [] then .ok d else viaTmp (fun t => .of (u8to16LE g src t)) (fun t => u16toAnsi n g cp t d) d

/-- `Transform(u16StringBEView, aString*)` (215-226) -/
def u16BEtoAnsi (n : Nls) (g : Grow) (cp : Nat) (src : List Nat) (d : Dst) : ARes :=
  viaTmp (fun t => .of (endian swap16 g src t)) (fun t => u16toAnsi n g cp t d) d

/-- `Transform(u32StringLEView, aString*)` (228-239) -/
def u32LEtoAnsi (n : Nls) (g : Grow) (cp : Nat) (src : List Nat) (d : Dst) : ARes :=
  viaTmp (fun t => .of (u32LEto16LE g src t)) (fun t => u16toAnsi n g cp t d) d

/-- `Transform(u32StringBEView, aString*)` (241-252) -/
def u32BEtoAnsi (n : Nls) (g : Grow) (cp : Nat) (src : List Nat) (d : Dst) : ARes :=
  viaTmp (fun t => .of (u32BEto16LE g src t)) (fun t => u16toAnsi n g cp t d) d

/-- `Transform(aStringView, u8String*)` (255-268) -/
def ansiTo8 (n : Nls) (g : Grow) (cp : Nat) (src : List Nat) (d : Dst) : ARes :=
  if src = [] then .ok d else viaTmp (fun t => ansiTo16 n g cp src t) (fun t => .of (u16LEto8 g t d)) d

/-- `TransformEndian(StringA&&, StringB*)` (69-118) of a temporary: with an empty destination the storage moves and is then released once too often (`Verif.StrHeap.C08_move_fails`) -/
def endianMove (swap : Nat → Nat) (g : Grow) (src : List Nat) (d : Dst) : ARes :=
  if src = [] then .ok d else if d.buf = [] then .dangling else .of (endian swap g src d)

/-- `Transform(aStringView, u16StringBE*)` (315-329) -/
def ansiTo16BE (n : Nls) (g : Grow) (cp : Nat) (src : List Nat) (d : Dst) : ARes :=
  if src = [] then .ok d else viaTmp (fun t => ansiTo16 n g cp src t) (fun t => endianMove swap16 g t d) d

/-- `Transform(aStringView, u32StringLE*)` (331-345) -/
def ansiTo32 (n : Nls) (g : Grow) (cp : Nat) (src : List Nat) (d : Dst) : ARes :=
  if src = [] then .ok d else viaTmp (fun t => ansiTo16 n g cp src t) (fun t => .of (u16LEto32LE g t d)) d

/-- `Transform(aStringView, u32StringBE*)` (347-361) -/
def ansiTo32BE (n : Nls) (g : Grow) (cp : Nat) (src : List Nat) (d : Dst) : ARes :=
  if src = [] then .ok d else viaTmp (fun t => ansiTo32 n g cp src t) (fun t => endianMove swap32 g t d) d

/-- `Transform(aStringView, aString*)` (122-127) and `Transform(aString, aString*)` (129-135): `AppendString`, whatever the two encodings -/
def ansiToAnsi (_cpSrc _cpDst : Nat) (g : Grow) (src : List Nat) (d : Dst) : ARes :=
  match lock g d (d.buf.length + src.length) with
  | none => .oom d
  | some d => if d.cap < d.buf.length + src.length then .ub else .ok { d with buf := d.buf ++ src }

/-! ### the loop -/

/-- the allocator gives out no more than 2^62 units -/
def Lim (g : Grow) : Prop := ∀ c n c', g c n = some c' → c' < 2 ^ 62

/-- requests to enlarge up to `n` are met -/
def Enough (g : Grow) (n : Nat) : Prop := ∀ c k, c < k → k ≤ n → g c k ≠ none

theorem lock_ok {g : Grow} (hg : Good g) {d : Dst} {n : Nat} : (lock g d n = none ∧ ¬ n ≤ d.cap ∧ g d.cap n = none) ∨ ∃ c, lock g d n = some ⟨d.buf, c⟩ ∧ n ≤ c ∧ d.cap ≤ max c n ∧ ((n ≤ d.cap ∧ c = d.cap) ∨ (d.cap < n ∧ g d.cap n = some c)) := by
  unfold lock
  by_cases h : n ≤ d.cap
  · rw [if_pos h]; exact .inr ⟨d.cap, rfl, h, by omega, .inl ⟨h, rfl⟩⟩
  · rw [if_neg h]
    cases e : g d.cap n with
    | none => exact .inl ⟨rfl, h, rfl⟩
    | some c => exact .inr ⟨c, rfl, hg _ _ _ e, by have := hg _ _ _ e; omega, .inr ⟨by omega, rfl⟩⟩

/-- what `u16toAnsi` leaves, `o` being the conversion: success with the converted text appended, or the old text with an error -/
def ToAnsi (err : Nat) (o : Option (List Nat)) (g : Grow) (N : Nat) (d : Dst) (r : ARes) : Prop :=
  (∃ t c, o = some t ∧ t.length ≤ intMax ∧ r = .ok ⟨d.buf ++ t, c⟩ ∧ (d.buf ++ t).length ≤ c) ∨
  (∃ c, o = none ∧ r = .err err ⟨d.buf, c⟩ ∧ d.buf.length ≤ c) ∨
  (∃ c, r = .oom ⟨d.buf, c⟩ ∧ d.buf.length ≤ c ∧ ((∃ t, o = some t ∧ intMax < t.length) ∨ ¬ Enough g N))

theorem double {X want c k : Nat} (h : X ≤ want * 2 ^ (k + 1)) (hc : want ≤ c) : X ≤ c * 2 * 2 ^ k := by
  rw [Nat.pow_succ, Nat.mul_comm (2 ^ k) 2, ← Nat.mul_assoc] at h
  exact Nat.le_trans h (Nat.mul_le_mul_right _ (Nat.mul_le_mul_right _ hc))

theorem start {w : Nat} (h : 1 ≤ w) : 2 ^ 62 ≤ w * 2 ^ 63 := by omega

theorem loop_ok {n : Nls} {g : Grow} {cp : Nat} {src : List Nat} (hn : n.Ok) (hs : src ≠ []) (hg : Good g) (hl : Lim g) (N : Nat) :
    ∀ (k want : Nat) (d : Dst), 2 ^ 62 ≤ want * 2 ^ k → d.cap < 2 ^ 62 → want < 2 ^ 63 → d.buf.length < want → d.buf.length ≤ d.cap → want ≤ N →
      (∀ t, n.toMulti cp src = some t → 2 * (d.buf.length + t.length) ≤ N) → ToAnsi n.err (n.toMulti cp src) g N d (toAnsiLoop n g cp src (k + 1) want d)
  | k, want, d, h1, h2, h3, h4, h5, h6, h7 => by
    unfold toAnsiLoop
    rw [if_neg (by omega)]
    rcases lock_ok hg (d := d) (n := want) with ⟨e, e1, e2⟩ | ⟨c, e, hc, hcm, hcc⟩
    · rw [e]; exact .inr (.inr ⟨d.cap, rfl, h5, .inr (fun he => he _ _ (by omega) h6 e2)⟩)
    · rw [e]; dsimp only
      have hc62 : c < 2 ^ 62 := by
        rcases hcc with ⟨_, rfl⟩ | ⟨_, hh⟩
        · exact h2
        · exact hl _ _ _ hh
      have hroom : ∃ room, room = (if intMax < c - d.buf.length then intMax else c - d.buf.length) ∧ 0 < room ∧ room ≤ c - d.buf.length ∧ room ≤ intMax ∧ (room < intMax → room = c - d.buf.length) := by
        refine ⟨_, rfl, ?_⟩
        have hi0 : 0 < intMax := by decide
        clear h1
        by_cases hi : intMax < c - d.buf.length
        · rw [if_pos hi]; omega
        · rw [if_neg hi]; omega
      obtain ⟨room, hr, r0, r1, r2, r3⟩ := hroom
      rw [← hr]
      unfold sysConv
      cases et : n.toMulti cp src with
      | none =>
        dsimp only; rw [if_pos hn.err]
        exact .inr (.inl ⟨c, rfl, rfl, by omega⟩)
      | some t =>
        dsimp only; rw [if_neg (by omega)]
        by_cases ht : room < t.length
        · rw [if_pos ht]; dsimp only; rw [if_neg (by simp)]
          have hmod : c * 2 % 2 ^ 64 = c * 2 := Nat.mod_eq_of_lt (by omega)
          rw [hmod]
          by_cases hbig : intMax < t.length ∨ ¬ Enough g N
          · -- the loop ends for lack of memory, or (if that never comes) as below
            cases k with
            | zero => exfalso; omega
            | succ k =>
              have := loop_ok hn hs hg hl (max N (2 * c)) k (c * 2) ⟨d.buf, c⟩
                (double h1 hc) hc62 (by omega) (by dsimp only; omega) (by dsimp only; omega) (by omega) (by intro t' h'; dsimp only; have := h7 t' h'; omega)
              rw [et] at this
              rcases this with ⟨t', c', q1, q2, q3, q4⟩ | ⟨c', q1, _⟩ | ⟨c', q1, q2, q3⟩
              · exact .inl ⟨t', c', q1, q2, q3, q4⟩
              · cases q1
              · refine .inr (.inr ⟨c', q1, q2, ?_⟩)
                rcases hbig with hb | hb
                · exact .inl ⟨t, rfl, hb⟩
                · exact .inr hb
          · rw [not_or] at hbig
            have hN := h7 t et
            have hlt : c - d.buf.length < t.length := by have := r3 (by omega); omega
            cases k with
            | zero => exfalso; omega
            | succ k =>
              have := loop_ok hn hs hg hl N k (c * 2) ⟨d.buf, c⟩
                (double h1 hc) hc62 (by omega) (by dsimp only; omega) (by dsimp only; omega) (by omega) (by intro t' h'; exact h7 t' h')
              rw [et] at this
              exact this
        · rw [if_neg ht]; dsimp only
          rw [if_neg (by omega)]
          exact .inl ⟨t, c, rfl, by omega, rfl, by rw [List.length_append]; omega⟩

/-! ### C93 -/

/-- UTF-16 to a code page: for every text, code page and destination the call ends, and either appends exactly the system's conversion, or reports the system's error, a source that is too long, or a lack of memory and leaves the destination's text as it
was; memory that meets requests up to twice the larger of the first estimate and the result is enough for a result of at most INT_MAX bytes. -/
theorem C93_to_ansi (n : Nls) (hn : n.Ok) (g : Grow) (hg : Good g) (hl : Lim g) (cp : Nat) (src : List Nat) (d : Dst) (hd : d.buf.length ≤ d.cap) (hc : d.cap < 2 ^ 62) (N : Nat)
    (h1 : d.buf.length + src.length * 2 ≤ N) (h2 : ∀ t, n.toMulti cp src = some t → 2 * (d.buf.length + t.length) ≤ N) :
    (src = [] ∧ u16toAnsi n g cp src d = .ok d) ∨ (src ≠ [] ∧ intMax < src.length ∧ u16toAnsi n g cp src d = .unexpected d) ∨
      (src ≠ [] ∧ src.length ≤ intMax ∧ ToAnsi n.err (n.toMulti cp src) g N d (u16toAnsi n g cp src d)) := by
  unfold u16toAnsi
  by_cases h0 : src = []
  · rw [if_pos h0]; exact .inl ⟨h0, rfl⟩
  · rw [if_neg h0]
    by_cases hb : intMax < src.length
    · rw [if_pos hb]; exact .inr (.inl ⟨h0, hb, rfl⟩)
    · rw [if_neg hb]
      refine .inr (.inr ⟨h0, by omega, ?_⟩)
      have hpos : 0 < src.length := List.length_pos_iff.2 h0
      have hlt : d.buf.length + src.length * 2 < 2 ^ 63 := by simp only [intMax] at hb; omega
      rw [Nat.mod_eq_of_lt (by omega)]
      exact loop_ok hn h0 hg hl N 63 _ d (start (by omega)) hc hlt (by omega) hd h1 h2

/-- A code page to UTF-16 (little endian), where the system converts the text and the result is not longer than the source: exactly that text is appended, or memory is lacking and nothing is changed.
Missing for the full claim (every text is converted or an error is reported): the system's failures, see `C93_silent_fails`. -/
theorem C93_from_ansi_partial (n : Nls) (g : Grow) (hg : Good g) (cp : Nat) (src t : List Nat) (d : Dst) (hd : d.buf.length ≤ d.cap) (hs : src ≠ []) (hb : src.length ≤ intMax) (ht : n.toWide cp src = some t) (hl : t.length ≤ src.length) :
    (∃ c, ansiTo16 n g cp src d = .ok ⟨d.buf ++ t, c⟩ ∧ (d.buf ++ t).length ≤ c) ∨ (ansiTo16 n g cp src d = .oom d ∧ ¬ Enough g (d.buf.length + src.length)) := by
  have hpos : 0 < src.length := List.length_pos_iff.2 hs
  unfold ansiTo16
  rw [if_neg hs, if_neg (by omega)]
  rcases lock_ok hg (d := d) (n := d.buf.length + src.length) with ⟨e, e1, e2⟩ | ⟨c, e, hc, _, _⟩
  · rw [e]; exact .inr ⟨rfl, fun he => he _ _ (by omega) (Nat.le_refl _) e2⟩
  · rw [e]; dsimp only
    unfold sysConv; rw [ht]; dsimp only
    rw [if_neg (by omega), if_neg (by omega)]; dsimp only
    rw [if_neg (by omega)]
    exact .inl ⟨c, rfl, by rw [List.length_append]; omega⟩

/-- Whenever `MultiByteToWideChar` fails – an unknown code page, or a code page in which a byte may stand for several UTF-16 units, so that the result is longer than the source – the conversion reports success and appends nothing: the text is lost. -/
theorem C93_silent_fails (n : Nls) (g : Grow) (hg : Good g) (cp : Nat) (src : List Nat) (d : Dst) (hs : src ≠ []) (hb : src.length ≤ intMax)
    (hf : ∀ t, n.toWide cp src = some t → src.length < t.length) (he : Enough g (d.buf.length + src.length)) : ∃ c, ansiTo16 n g cp src d = .ok ⟨d.buf, c⟩ := by
  have hpos : 0 < src.length := List.length_pos_iff.2 hs
  unfold ansiTo16
  rw [if_neg hs, if_neg (by omega)]
  rcases lock_ok hg (d := d) (n := d.buf.length + src.length) with ⟨e, e1, e2⟩ | ⟨c, e, hc, _, _⟩
  · exact absurd e2 (he _ _ (by omega) (Nat.le_refl _))
  · rw [e]; dsimp only
    unfold sysConv
    cases et : n.toWide cp src with
    | none => exact ⟨c, rfl⟩
    | some t => dsimp only; rw [if_neg (by omega), if_pos (hf t et)]; exact ⟨c, rfl⟩

/-- Between two code pages the bytes are copied: the text changes whenever the two read the bytes differently. -/
theorem C93_cp_fails (n : Nls) (g : Grow) (hg : Good g) (a b : Nat) (src : List Nat) (h : n.toWide a src ≠ n.toWide b src) (he : Enough g src.length) :
    ∃ c bytes, ansiToAnsi a b g src ⟨[], 0⟩ = .ok ⟨bytes, c⟩ ∧ n.toWide b bytes ≠ n.toWide a src := by
  unfold ansiToAnsi
  rcases lock_ok hg (d := ⟨[], 0⟩) (n := ([] : List Nat).length + src.length) with ⟨e, e1, e2⟩ | ⟨c, e, hc, _, _⟩
  · exact absurd e2 (he _ _ (by simp only [List.length_nil] at *; omega) (by simp))
  · rw [e]; dsimp only
    rw [if_neg (by omega)]
    exact ⟨c, src, by simp, fun hh => h hh.symm⟩

/-- The bytes are appended unchanged behind the old ones, so that within one code page the text is kept; without memory the destination is left alone. -/
theorem C93_cp_append_partial (g : Grow) (hg : Good g) (a b : Nat) (src : List Nat) (d : Dst) :
    (∃ c, ansiToAnsi a b g src d = .ok ⟨d.buf ++ src, c⟩ ∧ d.buf.length + src.length ≤ c) ∨ (ansiToAnsi a b g src d = .oom d ∧ g d.cap (d.buf.length + src.length) = none) := by
  unfold ansiToAnsi
  rcases lock_ok hg (d := d) (n := d.buf.length + src.length) with ⟨e, e1, e2⟩ | ⟨c, e, hc, _, _⟩
  · rw [e]; exact .inr ⟨rfl, e2⟩
  · rw [e]; dsimp only
    rw [if_neg (by omega)]
    exact .inl ⟨c, rfl, hc⟩

/-! ### through UTF-16 -/

/-- the text is appended, or memory was lacking -/
def Out (d : Dst) (o : List Nat) (r : ARes) : Prop := (∃ c, r = .ok ⟨d.buf ++ o, c⟩) ∨ ∃ d', r = .oom d'

/-- the same; a failure leaves the text alone -/
def OutK (d : Dst) (o : List Nat) (r : ARes) : Prop := (∃ c, r = .ok ⟨d.buf ++ o, c⟩) ∨ ∃ c, r = .oom ⟨d.buf, c⟩

theorem to_text {n : Nls} (hn : n.Ok) {g : Grow} (hg : Good g) (hl : Lim g) {cp : Nat} {src b : List Nat} {d : Dst} (hd : d.buf.length ≤ d.cap) (hc : d.cap < 2 ^ 62) (h0 : src ≠ []) (hb : src.length ≤ intMax)
    (ht : n.toMulti cp src = some b) (hs : b.length ≤ intMax) : OutK d b (u16toAnsi n g cp src d) := by
  rcases C93_to_ansi n hn g hg hl cp src d hd hc (max (d.buf.length + src.length * 2) (2 * (d.buf.length + b.length))) (by omega)
    (by intro t e; rw [ht] at e; cases e; omega) with ⟨e, e1⟩ | ⟨_, h, _⟩ | ⟨h, _, h2⟩
  · exact absurd e h0
  · omega
  · rw [ht] at h2
    rcases h2 with ⟨t, c, e, _, e2, _⟩ | ⟨c, e, _⟩ | ⟨c, e, _⟩
    · cases e; exact .inl ⟨c, e2⟩
    · cases e
    · exact .inr ⟨c, e⟩

theorem via_to {g : Grow} {u : List Nat} {first : Dst → Res} {next : List Nat → ARes} {d : Dst} {b : List Nat} (h : Appends g ⟨[], 0⟩ u (first ⟨[], 0⟩)) (hx : OutK d b (next u)) :
    OutK d b (viaTmp (fun t => .of (first t)) next d) := by
  unfold viaTmp
  dsimp only
  rcases h with ⟨c, e, _⟩ | ⟨_, d', e, _⟩
  · rw [e]; simp only [ARes.of, List.nil_append]; exact hx
  · rw [e]; simp only [ARes.of]; exact .inr ⟨d.cap, rfl⟩

theorem utf16s_ne {l : List Nat} (h : l ≠ []) : utf16s l ≠ [] := by
  cases l with
  | nil => exact absurd rfl h
  | cons a l =>
    intro e
    simp only [utf16s, List.flatMap_cons, List.append_eq_nil_iff] at e
    have := e.1
    unfold utf16 at this
    split at this <;> cases this

theorem utf8s_ne {l : List Nat} (h : l ≠ []) : utf8s l ≠ [] := by
  cases l with
  | nil => exact absurd rfl h
  | cons a l =>
    intro e
    simp only [utf8s, List.flatMap_cons, List.append_eq_nil_iff] at e
    have := e.1
    unfold utf8 at this
    repeat' split at this
    all_goals cases this

/-- Every Unicode form of a text gives the same bytes in a code page: the system's conversion of its UTF-16 form. For UTF-32 little endian only texts of the basic multilingual plane (missing: the others, see `C93_32LE_fails`, through `C04_fails`). -/
theorem C93_same_bytes_partial (n : Nls) (hn : n.Ok) (g : Grow) (hg : Good g) (hl : Lim g) (cp : Nat) (l b : List Nat) (hsc : ∀ x ∈ l, Scalar x) (h0 : l ≠ []) (hlen : (utf16s l).length ≤ intMax)
    (ht : n.toMulti cp (utf16s l) = some b) (hs : b.length ≤ intMax) (d : Dst) (hd : d.buf.length ≤ d.cap) (hc : d.cap < 2 ^ 62) :
    OutK d b (u16toAnsi n g cp (utf16s l) d) ∧ OutK d b (u8toAnsi n g cp (utf8s l) d) ∧ OutK d b (u16BEtoAnsi n g cp ((utf16s l).map rev16) d) ∧
    OutK d b (u32BEtoAnsi n g cp (l.map rev32) d) ∧ ((∀ x ∈ l, x < 0x10000) → OutK d b (u32LEtoAnsi n g cp l d)) := by
  have base := to_text hn hg hl hd hc (utf16s_ne h0) hlen ht hs
  have h00 : ([] : List Nat).length ≤ 0 := Nat.le_refl _
  refine ⟨base, ?_, ?_, ?_, ?_⟩
  · unfold u8toAnsi
    rw [if_neg (utf8s_ne h0)]
    refine via_to (g := g) (u := utf16s l) ?_ base
    have := conv8_ok _ q bound8to16LE g hg (utf8s l) ⟨[], 0⟩ h00
    rwa [out8_16_text q l hsc] at this
  · unfold u16BEtoAnsi
    refine via_to (g := g) (u := utf16s l) ?_ base
    have := endian_ok swap16 g hg ((utf16s l).map rev16) ⟨[], 0⟩ h00
    rw [map_swap16, List.map_map] at this
    have e : (utf16s l).map (rev16 ∘ rev16) = utf16s l := by
      conv => rhs; rw [← List.map_id (utf16s l)]
      exact List.map_congr_left fun x hx => rev16_rev16 x (utf16_lt l hsc x hx)
    rwa [e] at this
  · unfold u32BEtoAnsi
    refine via_to (g := g) (u := utf16s l) ?_ base
    have := (convG_ok (noLast emit32BEto16LE) 2 1 true bound32BEto16LE g hg (l.map rev32) ⟨[], 0⟩ h00).1
    rw [out16_noLast] at this
    have h3 : (l.map rev32).flatMap emit32BEto16LE = utf16s l := by
      rw [List.flatMap_map]
      refine flatMap_congr fun x hx => ?_
      have := (hsc x hx).1
      rw [emit32BEto16LE_eq x (by omega), if_pos this]
    rwa [h3] at this
  · intro hb
    unfold u32LEtoAnsi
    refine via_to (g := g) (u := utf16s l) ?_ base
    have := (convG_ok (noLast emit32LEto16LE) 2 1 true bound32LEto16LE g hg l ⟨[], 0⟩ h00).1
    rw [out16_noLast] at this
    have h3 : l.flatMap emit32LEto16LE = utf16s l := by
      refine flatMap_congr fun x hx => ?_
      have := hb x hx
      unfold emit32LEto16LE utf16
      rw [if_pos this, if_pos this]
      first | rfl | (congr 1; omega)
    rwa [h3] at this

theorem codeGrow_good : Good codeGrow := by
  intro c n c' h
  unfold codeGrow growRealloc at h
  cases h; dsimp only; split <;> omega

theorem codeGrow_total : Total codeGrow := fun c n => ⟨_, rfl⟩

/-- A supplementary character in UTF-32 little endian reaches the code page as two characters below U+0100 instead (`C04_fails`). -/
theorem C93_32LE_fails (n : Nls) (g : Grow) (hg : Good g) (cp x : Nat) (h1 : 0x10000 ≤ x) (h2 : x < 0x110000) (d : Dst) :
    ∃ o, o ≠ utf16s [x] ∧ (∀ u ∈ o, u < 256) ∧ (u32LEtoAnsi n g cp [x] d = u16toAnsi n g cp o d ∨ u32LEtoAnsi n g cp [x] d = .oom d) := by
  obtain ⟨o, c, e, e1, e2⟩ := C04_fails codeGrow codeGrow_good codeGrow_total x h1 h2 ⟨[], 0⟩ (Nat.le_refl _)
  have eo : [x].flatMap emit32LEto16LE = o := by
    have := (convG_ok (noLast emit32LEto16LE) 2 1 true bound32LEto16LE codeGrow codeGrow_good [x] ⟨[], 0⟩ (Nat.le_refl _)).1.ok codeGrow_total
    rw [out16_noLast] at this
    obtain ⟨c', h⟩ := this
    unfold u32LEto16LE at e
    rw [h] at e; injection e with e; injection e with e _
  refine ⟨o, e1, e2, ?_⟩
  unfold u32LEtoAnsi viaTmp u32LEto16LE; dsimp only
  have := (convG_ok (noLast emit32LEto16LE) 2 1 true bound32LEto16LE g hg [x] ⟨[], 0⟩ (Nat.le_refl _)).1
  rw [out16_noLast, eo] at this
  rcases this with ⟨c, e, _⟩ | ⟨_, d', e, _⟩
  · rw [e]; exact .inl rfl
  · rw [e]; exact .inr rfl

/-- A code page to UTF-8 and UTF-32, where the system decodes the bytes to the text `l` (not longer in UTF-16 than in bytes, and without U+E000: `C03_fails`): exactly that text is appended. To UTF-16 and UTF-32 big endian only if the destination is not empty
(missing: `C93_be_fails`). -/
theorem C93_same_text_partial (n : Nls) (g : Grow) (hg : Good g) (cp : Nat) (b l : List Nat) (hsc : ∀ x ∈ l, Scalar x ∧ x ≠ 0xE000) (h0 : b ≠ []) (hb : b.length ≤ intMax)
    (ht : n.toWide cp b = some (utf16s l)) (hlen : (utf16s l).length ≤ b.length) (d : Dst) (hd : d.buf.length ≤ d.cap) :
    Out d (utf8s l) (ansiTo8 n g cp b d) ∧ Out d l (ansiTo32 n g cp b d) ∧
    (d.buf ≠ [] → Out d ((utf16s l).map rev16) (ansiTo16BE n g cp b d) ∧ Out d (l.map rev32) (ansiTo32BE n g cp b d)) := by
  have hu : ∀ e : Dst, e.buf.length ≤ e.cap → Out e l (ansiTo32 n g cp b e) := by
    intro e he
    unfold ansiTo32 viaTmp; rw [if_neg h0]; dsimp only
    rcases C93_from_ansi_partial n g hg cp b (utf16s l) ⟨[], 0⟩ (Nat.le_refl _) h0 hb ht hlen with ⟨c, e1, _⟩ | ⟨e1, _⟩
    · rw [e1]; dsimp only
      have := conv16_ok _ q bound16LEto32LE g hg (utf16s l) e he
      rw [out16_32_text q l hsc] at this
      rw [List.nil_append]
      unfold u16LEto32LE
      rcases this with ⟨c, e2, _⟩ | ⟨_, d', e2, _⟩
      · rw [e2]; exact .inl ⟨c, rfl⟩
      · rw [e2]; exact .inr ⟨d', rfl⟩
    · rw [e1]; exact .inr ⟨_, rfl⟩
  have hm : ∀ (swap : Nat → Nat) (s : List Nat), d.buf ≠ [] → Out d (s.map swap) (endianMove swap g s d) := by
    intro swap s hne
    unfold endianMove
    by_cases hs : s = []
    · rw [if_pos hs, hs]; exact .inl ⟨d.cap, by simp⟩
    · rw [if_neg hs, if_neg hne]
      rcases endian_ok swap g hg s d hd with ⟨c, e2, _⟩ | ⟨_, d', e2, _⟩
      · rw [e2]; exact .inl ⟨c, rfl⟩
      · rw [e2]; exact .inr ⟨d', rfl⟩
  refine ⟨?_, hu d hd, fun hne => ⟨?_, ?_⟩⟩
  · unfold ansiTo8 viaTmp; rw [if_neg h0]; dsimp only
    rcases C93_from_ansi_partial n g hg cp b (utf16s l) ⟨[], 0⟩ (Nat.le_refl _) h0 hb ht hlen with ⟨c, e1, _⟩ | ⟨e1, _⟩
    · rw [e1]; dsimp only
      have := (convG_ok _ 4 3 false bound16LEto8 g hg (utf16s l) d hd).1
      rw [out16_8_text q l hsc] at this
      rw [List.nil_append]
      unfold u16LEto8
      rcases this with ⟨c, e2, _⟩ | ⟨_, d', e2, _⟩
      · rw [e2]; exact .inl ⟨c, rfl⟩
      · rw [e2]; exact .inr ⟨d', rfl⟩
    · rw [e1]; exact .inr ⟨_, rfl⟩
  · unfold ansiTo16BE viaTmp; rw [if_neg h0]; dsimp only
    rcases C93_from_ansi_partial n g hg cp b (utf16s l) ⟨[], 0⟩ (Nat.le_refl _) h0 hb ht hlen with ⟨c, e1, _⟩ | ⟨e1, _⟩
    · rw [e1]; dsimp only
      rw [List.nil_append, ← map_swap16]
      exact hm swap16 _ hne
    · rw [e1]; exact .inr ⟨_, rfl⟩
  · unfold ansiTo32BE viaTmp; rw [if_neg h0]; dsimp only
    rcases hu ⟨[], 0⟩ (Nat.le_refl _) with ⟨c, e1⟩ | ⟨d', e1⟩
    · rw [e1]; dsimp only
      rw [List.nil_append, ← map_swap32]
      exact hm swap32 _ hne
    · rw [e1]; exact .inr ⟨_, rfl⟩

/-- Into an empty big-endian String the conversion of every text that is not empty returns S_OK and leaves the destination with freed storage (the temporary's, moved by `TransformEndian`), unless memory is lacking. -/
theorem C93_be_fails (n : Nls) (g : Grow) (hg : Good g) (cp : Nat) (b l : List Nat) (hsc : ∀ x ∈ l, Scalar x ∧ x ≠ 0xE000) (hne : l ≠ []) (h0 : b ≠ []) (hb : b.length ≤ intMax)
    (ht : n.toWide cp b = some (utf16s l)) (hlen : (utf16s l).length ≤ b.length) (d : Dst) (hd : d.buf = []) :
    (ansiTo16BE n g cp b d = .dangling ∨ ansiTo16BE n g cp b d = .oom d) ∧ (ansiTo32BE n g cp b d = .dangling ∨ ansiTo32BE n g cp b d = .oom d) := by
  constructor
  · unfold ansiTo16BE viaTmp; rw [if_neg h0]; dsimp only
    rcases C93_from_ansi_partial n g hg cp b (utf16s l) ⟨[], 0⟩ (Nat.le_refl _) h0 hb ht hlen with ⟨c, e1, _⟩ | ⟨e1, _⟩
    · rw [e1]; dsimp only
      rw [List.nil_append]
      unfold endianMove; rw [if_neg (utf16s_ne hne), if_pos hd]; exact .inl rfl
    · rw [e1]; exact .inr rfl
  · unfold ansiTo32BE viaTmp; rw [if_neg h0]; dsimp only
    rcases (C93_same_text_partial n g hg cp b l hsc h0 hb ht hlen ⟨[], 0⟩ (Nat.le_refl _)).2.1 with ⟨c, e1⟩ | ⟨d', e1⟩
    · rw [e1]; dsimp only
      rw [List.nil_append]
      unfold endianMove; rw [if_neg hne, if_pos hd]; exact .inl rfl
    · rw [e1]; exact .inr rfl

/-! ### cases -/

/-- two code pages: 1 is ASCII with "é" (U+E9) at 0x82, 2 has a two-byte character 0x81 0x40 (U+3042) and at 0x82 a letter that takes two UTF-16 units; others do not exist -/
def demo : Nls where
  toMulti cp s :=
    if cp = 1 then some (s.map fun x => if x < 128 then x else if x = 0xE9 then 0x82 else 0x3F)
    else if cp = 2 then some (s.flatMap fun x => if x < 128 then [x] else if x = 0x3042 then [0x81, 0x40] else [0x3F])
    else none
  toWide cp s :=
    if cp = 1 then some (s.map fun x => if x < 128 then x else if x = 0x82 then 0xE9 else 0xFFFD)
    else if cp = 2 then (if s = [0x81, 0x40] then some [0x3042] else if s = [0x82] then some [0x30F, 0x301] else none)
    else none
  err := 87

def small : Grow := fun c n => if c < 1000 ∧ n < 1000 then some (growRealloc c n) else none

theorem demo_ok : demo.Ok := by
  refine ⟨?_, by decide⟩
  intro cp s o hs h e
  subst e
  simp only [demo] at h
  cases s with
  | nil => exact hs rfl
  | cons a s =>
    split at h
    · cases h
    · split at h
      · simp only [Option.some.injEq, List.flatMap_cons, List.append_eq_nil_iff] at h
        have := h.1
        split at this
        · cases this
        · split at this <;> cases this
      · cases h

theorem small_good : Good small ∧ Lim small ∧ Enough small 999 := by
  refine ⟨?_, ?_, ?_⟩
  · intro c n c' h
    unfold small growRealloc at h
    split at h
    · cases h; dsimp only; split <;> omega
    · cases h
  · intro c n c' h
    unfold small growRealloc at h
    split at h
    · cases h; dsimp only; split <;> omega
    · cases h
  · intro c k h1 h2
    unfold small; rw [if_pos (by omega)]; simp

/-- the hypotheses of the theorems are met and the calls do what they say: "aé" from UTF-8 into code page 1 behind "x", and back; the failing call of code page 2 -/
theorem C93_example : demo.toMulti 1 (utf16s [97, 0xE9]) = some [97, 0x82] ∧ demo.toWide 1 [97, 0x82] = some (utf16s [97, 0xE9]) ∧
    u8toAnsi demo small 1 (utf8s [97, 0xE9]) ⟨[120], 15⟩ = .ok ⟨[120, 97, 0x82], 15⟩ ∧ ansiTo8 demo small 1 [97, 0x82] ⟨[120], 15⟩ = .ok ⟨120 :: utf8s [97, 0xE9], 15⟩ ∧
    ansiTo16 demo small 2 [0x82] ⟨[120], 15⟩ = .ok ⟨[120], 15⟩ ∧ demo.toWide 2 [0x82] = some [0x30F, 0x301] ∧ ansiTo16 demo small 3 [97] ⟨[120], 15⟩ = .ok ⟨[120], 15⟩ ∧
    u16toAnsi demo small 3 [97] ⟨[120], 15⟩ = .err 87 ⟨[120], 15⟩ ∧ ansiTo16BE demo small 1 [97] ⟨[], 0⟩ = .dangling ∧ demo.toWide 1 [0x82] ≠ demo.toWide 2 [0x82] := by
  refine ⟨by decide, by decide, ?_, by decide, by decide, by decide, by decide, by decide, by decide, by decide⟩
  have e : u8to16LE small (utf8s [97, 0xE9]) ⟨[], 0⟩ = .ok ⟨[97, 0xE9], 15⟩ := by
    unfold u8to16LE conv8
    simp [utf8s, utf8, loop8, lock, small, growRealloc, puts, put, step8to16LE, cont]
  unfold u8toAnsi viaTmp
  rw [if_neg (utf8s_ne (by simp))]; dsimp only
  rw [e]
  decide

end Verif.Utf
