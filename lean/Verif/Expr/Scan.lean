import Verif.Expr.Model
import Mathlib.Tactic.ByContra

/-!
# Recognition of tokens

What `scan` (the chain of `else if` in `parse_expression`) consumes.  `Br`, `brStep`, `Balanced` are
the specification of matching brackets on the text; `SqrtSpelled` and `ShortWords` describe the
texts on which the scanner stays inside the text.
-/

namespace Plato.Ee

variable {K : Type}

/-- The two kinds of brackets. -/
inductive Br where
  | paren | bar
  deriving DecidableEq, Repr

/-- One character against the stack of open brackets: a bar closes the innermost bracket if that is
a bar and otherwise opens one. -/
def brStep (s : List Br) (c : Char) : Option (List Br) :=
  if c = '(' then some (.paren :: s)
  else if c = ')' then
    match s with
    | .paren :: s' => some s'
    | _ => none
  else if c = '|' then
    match s with
    | .bar :: s' => some s'
    | _ => some (.bar :: s)
  else some s

/-- Run over a text. -/
def brRun : List Br → List Char → Option (List Br)
  | s, [] => some s
  | s, c :: cs => (brStep s c).bind fun s' => brRun s' cs

/-- Every bracket of the text is matched. -/
def Balanced (text : List Char) : Prop := brRun [] text = some []

instance (text : List Char) : Decidable (Balanced text) := by unfold Balanced; infer_instance

/-- Every `sqr` in the text is the beginning of `sqrt`. -/
def SqrtSpelled (text : List Char) : Prop :=
  ∀ a b, text = a ++ 's' :: 'q' :: 'r' :: b → ∃ b', b = 't' :: b'

/-- Characters of numbers and names. -/
def isWordChar (c : Char) : Bool := isNameChar c || c == '.' || c == '+' || c == '-'

/-- No 127 consecutive characters of numbers or names. -/
def ShortWords (text : List Char) : Prop :=
  ∀ a w b, text = a ++ w ++ b → (∀ c ∈ w, isWordChar c = true) → w.length < 127

theorem SqrtSpelled.suffix {w text : List Char} (h : SqrtSpelled (w ++ text)) : SqrtSpelled text :=
  fun a b hb => h (w ++ a) b (by rw [hb, List.append_assoc])

theorem ShortWords.suffix {w text : List Char} (h : ShortWords (w ++ text)) : ShortWords text :=
  fun a u b hb => h (w ++ a) u b (by rw [hb]; simp)

/-- Not a bracket. -/
def notBr (c : Char) : Prop := c ≠ '(' ∧ c ≠ ')' ∧ c ≠ '|'

instance (c : Char) : Decidable (notBr c) := by unfold notBr; infer_instance

theorem brStep_notBr {s : List Br} {c : Char} (h : notBr c) : brStep s c = some s := by
  simp [brStep, h.1, h.2.1, h.2.2]

theorem brRun_append (s : List Br) (a b : List Char) :
    brRun s (a ++ b) = (brRun s a).bind fun s' => brRun s' b := by
  induction a generalizing s with
  | nil => rfl
  | cons c a ih =>
    simp only [List.cons_append, brRun]
    cases brStep s c with
    | none => rfl
    | some s' => simp [ih]

theorem brRun_notBr {s : List Br} {w : List Char} (h : ∀ c ∈ w, notBr c) : brRun s w = some s := by
  induction w with
  | nil => rfl
  | cons c w ih =>
    simp only [brRun, brStep_notBr (h c (by simp)), Option.bind_some]
    exact ih fun x hx => h x (by simp [hx])

theorem isDigit_word {c : Char} (h : isDigit c = true) : isWordChar c = true := by
  simp [isWordChar, isNameChar, h]

theorem isWordChar_notBr {c : Char} (h : isWordChar c = true) : notBr c := by
  refine ⟨?_, ?_, ?_⟩ <;> rintro rfl <;> revert h <;> decide

theorem scanNumber_spec (buf : List Char) (c : Char) (rest : List Char)
    (hc : isWordChar c = true) : ∃ w, c :: rest = w ++ (scanNumber buf c rest).2.1 ∧
      (scanNumber buf c rest).1 = buf ++ w ∧ w ≠ [] ∧ (∀ x ∈ w, isWordChar x = true) ∧
      ((scanNumber buf c rest).2.2 = true → (scanNumber buf c rest).1.length = 127) := by
  fun_induction scanNumber buf c rest with
  | case1 buf c buf' h => exact ⟨[c], by simp, rfl, by simp, by simpa using hc, fun _ => by simpa using h⟩
  | case2 buf c buf' h => exact ⟨[c], by simp, rfl, by simp, by simpa using hc, by simp⟩
  | case3 buf c d rest buf' h =>
    exact ⟨[c], by simp, rfl, by simp, by simpa using hc, fun _ => by simpa using h⟩
  | case4 buf c d rest buf' h hd ih =>
    have hdw : isWordChar d = true := by
      rcases Bool.or_eq_true_iff.mp hd with hd | hd
      · exact isDigit_word hd
      · simp at hd; subst hd; decide
    obtain ⟨w, h1, h2, h3, h4, h5⟩ := ih hdw
    refine ⟨c :: w, by rw [h1]; simp, by rw [h2]; simp [buf'], by simp, ?_, h5⟩
    intro x hx
    rcases List.mem_cons.mp hx with rfl | hx
    · exact hc
    · exact h4 x hx
  | case5 buf c d rest buf1 h hd he buf' h' =>
    simp at he; subst he
    exact ⟨[c, 'e'], by simp, by simp [buf', buf1], by simp, by
      intro x hx
      simp at hx
      rcases hx with rfl | rfl
      · exact hc
      · decide, fun _ => by simpa using h'⟩
  | case6 buf c d buf1 h hd he buf' h' =>
    simp at he; subst he
    exact ⟨[c, 'e'], by simp, by simp [buf', buf1], by simp, by
      intro x hx
      simp at hx
      rcases hx with rfl | rfl
      · exact hc
      · decide, by simp⟩
  | case7 buf c d buf1 h hd he buf' h' d' rest' hd' ih =>
    simp at he; subst he
    have hdw : isWordChar d' = true := by
      simp only [Bool.or_eq_true, beq_iff_eq] at hd'
      rcases hd' with (hd' | rfl) | rfl
      · exact isDigit_word hd'
      · decide
      · decide
    obtain ⟨w, h1, h2, h3, h4, h5⟩ := ih hdw
    refine ⟨c :: 'e' :: w, by rw [h1]; simp, by rw [h2]; simp [buf', buf1], by simp, ?_, h5⟩
    intro x hx
    simp at hx
    rcases hx with rfl | rfl | hx
    · exact hc
    · decide
    · exact h4 x hx
  | case8 buf c d buf1 h hd he buf' h' d' rest' hd' =>
    simp at he; subst he
    exact ⟨[c, 'e'], by simp, by simp [buf', buf1], by simp, by
      intro x hx
      simp at hx
      rcases hx with rfl | rfl
      · exact hc
      · decide, by simp⟩
  | case9 buf c d rest buf' h hd he =>
    exact ⟨[c], by simp, rfl, by simp, by simpa using hc, by simp⟩

theorem isNameChar_word {c : Char} (h : isNameChar c = true) : isWordChar c = true := by
  simp [isWordChar, h]

theorem scanName_spec (buf : List Char) (c : Char) (rest : List Char)
    (hc : isWordChar c = true) : ∃ w, c :: rest = w ++ (scanName buf c rest).2.1 ∧
      (scanName buf c rest).1 = buf ++ w ∧ w ≠ [] ∧ (∀ x ∈ w, isWordChar x = true) ∧
      ((scanName buf c rest).2.2 = true → (scanName buf c rest).1.length = 127) := by
  fun_induction scanName buf c rest with
  | case1 buf c buf' h => exact ⟨[c], by simp, rfl, by simp, by simpa using hc, fun _ => by simpa using h⟩
  | case2 buf c buf' h => exact ⟨[c], by simp, rfl, by simp, by simpa using hc, by simp⟩
  | case3 buf c d rest buf' h =>
    exact ⟨[c], by simp, rfl, by simp, by simpa using hc, fun _ => by simpa using h⟩
  | case4 buf c d rest buf' h hd ih =>
    obtain ⟨w, h1, h2, h3, h4, h5⟩ := ih (isNameChar_word hd)
    refine ⟨c :: w, by rw [h1]; simp, by rw [h2]; simp [buf'], by simp, ?_, h5⟩
    intro x hx
    rcases List.mem_cons.mp hx with rfl | hx
    · exact hc
    · exact h4 x hx
  | case5 buf c d rest buf' h hd =>
    exact ⟨[c], by simp, rfl, by simp, by simpa using hc, by simp⟩

/-- The tokens that are not brackets. -/
def Tok.plain : Tok → Bool
  | .openP | .closeP | .bar => false
  | _ => true

/-- The names of functions of one argument. -/
def isFn : NodeID → Bool
  | .sin | .cos | .tan | .exponential | .log | .sqrt | .abs => true
  | _ => false

/-- How a recognised token and the consumed characters fit together. -/
structure Consumed (tok : Tok) (w : List Char) : Prop where
  ne : w ≠ []
  openP : tok = .openP → w = ['(']
  closeP : tok = .closeP → w = [')']
  bar : tok = .bar → w = ['|']
  plain : tok.plain = true → ∀ c ∈ w, notBr c
  fn : ∀ f, tok = .fn f → isFn f = true

theorem looksAt_iff {w text : List Char} : looksAt w text = true ↔ ∃ t, text = w ++ t := by
  simp only [looksAt, List.isPrefixOf_iff_prefix, List.IsPrefix]
  exact ⟨fun ⟨t, h⟩ => ⟨t, h.symm⟩, fun ⟨t, h⟩ => ⟨t, h.symm⟩⟩

theorem scan_spec {text : List Char} (hne : text ≠ []) (hq : SqrtSpelled text)
    (hw : ShortWords text) : ∃ tok w rest, scan text = .ok (tok, rest, false) ∧ text = w ++ rest ∧
      Consumed tok w := by
  obtain ⟨c, rest, rfl⟩ := List.exists_cons_of_ne_nil hne
  simp only [scan]
  have one : ∀ tok : Tok, tok.plain = true → notBr c → (∀ f, tok = .fn f → isFn f = true) →
      Consumed tok [c] := fun tok h1 h2 h3 => ⟨by simp, by rintro rfl; simp [Tok.plain] at h1,
        by rintro rfl; simp [Tok.plain] at h1, by rintro rfl; simp [Tok.plain] at h1,
        by simpa using fun _ => h2, h3⟩
  have word : ∀ (u : List Char) (tok : Tok), tok.plain = true → u ≠ [] → (∀ c ∈ u, notBr c) →
      (∀ f, tok = .fn f → isFn f = true) → looksAt u (c :: rest) = true →
      c :: rest = u ++ (c :: rest).drop u.length ∧ Consumed tok u := by
    intro u tok h1 h2 h3 h4 h5
    obtain ⟨t, ht⟩ := looksAt_iff.mp h5
    refine ⟨by rw [ht]; simp, h2, ?_, ?_, ?_, fun _ => h3, h4⟩ <;> rintro rfl <;> simp [Tok.plain] at h1
  have pick : ∀ {b : Bool} {x y : Res (Tok × List Char × Bool)},
      (b = true → ∃ tok w r, x = .ok (tok, r, false) ∧ c :: rest = w ++ r ∧ Consumed tok w) →
      (b = false → ∃ tok w r, y = .ok (tok, r, false) ∧ c :: rest = w ++ r ∧ Consumed tok w) →
      ∃ tok w r, (if b = true then x else y) = .ok (tok, r, false) ∧ c :: rest = w ++ r ∧
        Consumed tok w := by
    intro b x y hx hy
    cases b with
    | true => simpa using hx rfl
    | false => simpa using hy rfl
  refine pick (fun h => ⟨_, [c], rest, rfl, rfl, one _ rfl ?_ (by simp)⟩) fun _ => ?_
  · simp only [Bool.or_eq_true, beq_iff_eq] at h
    rcases h with ((rfl | rfl) | rfl) | rfl <;> decide
  refine pick (fun h => ?_) fun hb1 => ?_
  · simp at h; subst h
    exact ⟨_, ['('], rest, rfl, rfl, by simp, by simp, by simp, by simp, by simp [Tok.plain],
      by simp⟩
  refine pick (fun h => ?_) fun hb2 => ?_
  · simp at h; subst h
    exact ⟨_, [')'], rest, rfl, rfl, by simp, by simp, by simp, by simp, by simp [Tok.plain],
      by simp⟩
  refine pick (fun h => ?_) fun hb3 => ?_
  · simp at h; subst h
    exact ⟨_, ['|'], rest, rfl, rfl, by simp, by simp, by simp, by simp, by simp [Tok.plain],
      by simp⟩
  have hnb : notBr c := by
    simp only [beq_eq_false_iff_ne] at hb1 hb2 hb3
    exact ⟨hb1, hb2, hb3⟩
  refine pick (fun h => ⟨_, [c], rest, rfl, rfl, one _ rfl hnb (by simp)⟩) fun _ => ?_
  refine pick (fun h => ⟨_, [c], rest, rfl, rfl, one _ rfl hnb (by simp)⟩) fun _ => ?_
  refine pick (fun h => ⟨_, [c], rest, rfl, rfl, one _ rfl hnb (by simp)⟩) fun _ => ?_
  refine pick (fun h => ⟨_, [c], rest, rfl, rfl, one _ rfl hnb (by simp)⟩) fun _ => ?_
  refine pick (fun h => ⟨_, [c], rest, rfl, rfl, one _ rfl hnb (by simp)⟩) fun _ => ?_
  refine pick (fun h => ⟨_, [c], rest, rfl, rfl, one _ rfl hnb (by simp)⟩) fun _ => ?_
  refine pick (fun h => ⟨_, _, _, rfl, word _ _ rfl (by simp) (by decide) (by simp [isFn]) h⟩)
    fun _ => ?_
  refine pick (fun h => ⟨_, _, _, rfl, word _ _ rfl (by simp) (by decide) (by simp [isFn]) h⟩)
    fun _ => ?_
  refine pick (fun h => ⟨_, _, _, rfl, word _ _ rfl (by simp) (by decide) (by simp [isFn]) h⟩)
    fun _ => ?_
  refine pick (fun h => ⟨_, _, _, rfl, word _ _ rfl (by simp) (by decide) (by simp [isFn]) h⟩)
    fun _ => ?_
  refine pick (fun h => ⟨_, _, _, rfl, word _ _ rfl (by simp) (by decide) (by simp [isFn]) h⟩)
    fun _ => ?_
  refine pick (fun h => ?_) fun _ => ?_
  · obtain ⟨t, ht⟩ := looksAt_iff.mp h
    obtain ⟨t2, rfl⟩ := hq [] t (by simpa using ht)
    simp only [List.cons_append, List.nil_append] at ht
    rw [ht]
    refine ⟨.fn .sqrt, ['s', 'q', 'r', 't'], t2, ?_, ?_, ⟨?_, ?_, ?_, ?_, fun _ => ?_, ?_⟩⟩
    · simp
    · simp
    · simp
    · simp
    · simp
    · simp
    · decide
    · simp [isFn]
  refine pick (fun h => ⟨_, _, _, rfl, word _ _ rfl (by simp) (by decide) (by simp [isFn]) h⟩)
    fun _ => ?_
  refine pick (fun h => ⟨_, _, _, rfl, word _ _ rfl (by simp) (by decide) (by simp) h⟩)
    fun _ => ?_
  refine pick (fun h => ⟨_, [c], rest, rfl, rfl, one _ rfl hnb (by simp)⟩) fun _ => ?_
  refine pick (fun h => ⟨_, _, _, rfl, word _ _ rfl (by simp) (by decide) (by simp) h⟩)
    fun _ => ?_
  refine pick (fun h => ?_) fun _ => ?_
  · obtain ⟨w, h1, h2, h3, h4, h5⟩ := scanNumber_spec [] c rest (isDigit_word h)
    have hover : (scanNumber [] c rest).2.2 = false := by
      by_contra hne
      have h6 := h5 (by simpa using hne)
      rw [h2] at h6
      have := hw [] w _ (by simpa using h1) h4
      simp at h6
      omega
    refine ⟨.num (scanNumber [] c rest).1, w, (scanNumber [] c rest).2.1, ?_, h1, ⟨h3, ?_, ?_, ?_,
      fun _ x hx => isWordChar_notBr (h4 x hx), ?_⟩⟩
    · rw [← hover]
    all_goals simp
  refine pick (fun h => ?_) fun _ => ?_
  · obtain ⟨w, h1, h2, h3, h4, h5⟩ := scanName_spec [] c rest
      (isNameChar_word (by simp [isNameChar, h]))
    have hover : (scanName [] c rest).2.2 = false := by
      by_contra hne
      have h6 := h5 (by simpa using hne)
      rw [h2] at h6
      have := hw [] w _ (by simpa using h1) h4
      simp at h6
      omega
    refine ⟨.var (scanName [] c rest).1, w, (scanName [] c rest).2.1, ?_, h1, ⟨h3, ?_, ?_, ?_,
      fun _ x hx => isWordChar_notBr (h4 x hx), ?_⟩⟩
    · rw [← hover]
    all_goals simp
  exact ⟨.bad, [c], rest, rfl, rfl, one _ rfl hnb (by simp)⟩

end Plato.Ee
