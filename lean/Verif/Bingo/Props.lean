import Verif.Bingo.Model
import Mathlib.Tactic.Linarith
import Mathlib.Data.List.TakeWhile

/-!
# C111: the custom equation is the one requested
-/

namespace Plato.Bingo
open Plato

/-- Text of lines that all end with a newline. -/
def textOf (ls : List Line) : List Char := ls.flatMap (· ++ ['\n'])

/-- Good stream. -/
abbrev good (t : List Char) : Stream := ⟨t, false, false⟩

theorem drop_line {l : Line} (h : '\n' ∉ l) (r : List Char) :
    (l ++ '\n' :: r).dropWhile (· ≠ '\n') = '\n' :: r ∧ (l ++ '\n' :: r).takeWhile (· ≠ '\n') = l := by
  induction l with
  | nil => simp
  | cons a l ih =>
    have ha : a ≠ '\n' := fun e => h (by simp [e])
    obtain ⟨i1, i2⟩ := ih fun e => h (List.mem_cons_of_mem _ e)
    constructor
    · rw [List.cons_append, List.dropWhile_cons_of_pos (by simpa using ha)]
      exact i1
    · rw [List.cons_append, List.takeWhile_cons_of_pos (by simpa using ha), i2]

/-- A whole line is read. -/
theorem getline_line {l : Line} (h : '\n' ∉ l) (r : List Char) (line : Line) :
    getline (good (l ++ '\n' :: r)) line = (true, good r, l) := by
  obtain ⟨h1, h2⟩ := drop_line h r
  unfold getline
  simp only [Bool.or_self, Bool.false_eq_true, if_false]
  rw [h1, h2]

/-- A last line without newline is read and the end noted. -/
theorem getline_last {l : Line} (h : '\n' ∉ l) (hl : l ≠ []) (line : Line) :
    getline (good l) line = (true, ⟨[], true, false⟩, l) := by
  have : l.dropWhile (· ≠ '\n') = [] := by
    refine List.dropWhile_eq_nil_iff.2 fun x hx => ?_
    simp only [ne_eq, decide_not, Bool.not_eq_eq_eq_not, Bool.not_true, decide_eq_false_iff_not]
    rintro rfl
    exact h hx
  unfold getline
  simp only [Bool.or_self, Bool.false_eq_true, if_false]
  rw [this]
  simp [hl]

theorem getline_end (line : Line) : getline (good []) line = (false, ⟨[], true, true⟩, []) := by
  simp [getline]

theorem textOf_cons (l : Line) (ls : List Line) : textOf (l :: ls) = l ++ '\n' :: textOf ls := by
  simp [textOf]

/-- Reading line number `n`. -/
theorem skip_lines (n : Nat) (ls : List Line) (hls : ∀ l ∈ ls, '\n' ∉ l) (line : Line) (hn : n < ls.length) :
    skip n (good (textOf ls)) line = (0, good (textOf (ls.drop (n + 1))), ls[n]) := by
  induction n generalizing ls line with
  | zero =>
    obtain ⟨l, ls, rfl⟩ := List.exists_cons_of_length_pos (by omega : 0 < ls.length)
    rw [skip, textOf_cons, getline_line (hls l (by simp))]
    simp
  | succ n ih =>
    obtain ⟨l, ls, rfl⟩ := List.exists_cons_of_length_pos (by omega : 0 < ls.length)
    rw [skip, textOf_cons, getline_line (hls l (by simp))]
    simp only [if_true]
    rw [ih ls (fun l' h => hls l' (List.mem_cons_of_mem _ h)) _ (by simpa using hn)]
    simp

/-- Asking for a line behind the last one of lines that end with a newline. -/
theorem skip_beyond (n : Nat) (ls : List Line) (hls : ∀ l ∈ ls, '\n' ∉ l) (line : Line) (hn : ls.length ≤ n) :
    (skip n (good (textOf ls)) line).2.2 = [] := by
  induction n generalizing ls line with
  | zero =>
    obtain rfl : ls = [] := List.length_eq_zero_iff.1 (by omega)
    rw [skip]
    exact congrArg (fun g => g.2.2) (getline_end line)
  | succ n ih =>
    cases ls with
    | nil =>
      rw [skip, show textOf [] = [] from rfl, getline_end]
      simp
    | cons l ls =>
      rw [skip, textOf_cons, getline_line (hls l (by simp))]
      simp only [if_true]
      exact ih ls (fun l' h => hls l' (List.mem_cons_of_mem _ h)) _ (by simpa using hn)

/-! ## Fuel -/

/-- Reads that a stream can still answer. -/
def left (s : Stream) : Nat := if s.eof || s.fail then 0 else s.rest.length + 1

theorem getline_left (s : Stream) (line : Line) :
    left (getline s line).2.1 ≤ left s ∧ ((getline s line).1 = true → left (getline s line).2.1 < left s) := by
  unfold getline
  by_cases h : (s.eof || s.fail) = true
  · rw [if_pos h]
    simp [left]
  · rw [if_neg h]
    have hl : left s = s.rest.length + 1 := if_neg h
    rw [hl]
    split
    · next c r e =>
      have : (s.rest.dropWhile (· ≠ '\n')).length ≤ s.rest.length := (List.dropWhile_suffix _).length_le
      rw [e, List.length_cons] at this
      simp [left]
      omega
    · split <;> simp [left]

theorem skip_left (n : Nat) (s : Stream) (line : Line) : left (skip n s line).2.1 ≤ left s := by
  induction n generalizing s line with
  | zero => exact (getline_left s line).1
  | succ n ih =>
    rw [skip]
    split
    · exact (ih _ _).trans (getline_left s line).1
    · exact (getline_left s line).1

/-- The loop ends before the fuel does. -/
theorem scan_fuel (fuel idx : Nat) (s : Stream) (line found : Line) (h : left s < fuel) :
    scan fuel idx s line found = scan (fuel + 1) idx s line found := by
  induction fuel generalizing idx s line found with
  | zero => omega
  | succ fuel ih =>
    rw [scan, scan]
    dsimp only
    obtain ⟨-, g2⟩ := getline_left s line
    by_cases hg : (getline s line).1 = true
    · have hlt := g2 hg
      simp only [hg, Bool.not_true, Bool.false_eq_true, if_false]
      rw [ih idx _ _ found (by omega)]
      split
      · rfl
      · split
        · split
          · rfl
          · split
            · rw [ih _ _ _ _ (by have := skip_left idx (getline s line).2.1 []; omega)]
            · rfl
        · rfl
    · simp [hg]

/-! ## C111 -/

theorem textOf_append (a b : List Line) : textOf (a ++ b) = textOf a ++ textOf b := by simp [textOf]

theorem textOf_length (ls : List Line) : ls.length ≤ (textOf ls).length := by
  induction ls with
  | nil => simp
  | cons l ls ih =>
    rw [textOf_cons, List.length_append, List.length_cons, List.length_cons]
    omega

/-- Lines without header are passed over. -/
theorem scan_pass (ls : List Line) (hls : ∀ l ∈ ls, '\n' ∉ l ∧ isHeader l = false) (fuel idx : Nat) (t : List Char)
    (line found : Line) : ∃ line', scan (ls.length + fuel) idx (good (textOf ls ++ t)) line found =
      scan fuel idx (good t) line' found := by
  induction ls generalizing line with
  | nil => exact ⟨line, by simp [textOf]⟩
  | cons l ls ih =>
    obtain ⟨h1, h2⟩ := hls l (by simp)
    obtain ⟨line', e⟩ := ih (fun l' h => hls l' (List.mem_cons_of_mem _ h)) l
    refine ⟨line', ?_⟩
    rw [← e, List.length_cons, show ls.length + 1 + fuel = (ls.length + fuel) + 1 by omega, scan, textOf_cons,
      List.append_assoc, List.cons_append, getline_line h1]
    simp [h2]

/-- The text behind the last comma. -/
theorem afterComma_eq {a eq : Line} (h : ',' ∉ eq) : afterComma (a ++ ',' :: eq) = some eq := by
  unfold afterComma
  rw [if_pos (by simp), List.reverse_append, List.reverse_cons, List.append_assoc,
    List.takeWhile_append_of_pos (by
      intro x hx
      simp only [ne_eq, decide_not, Bool.not_eq_eq_eq_not, Bool.not_true, decide_eq_false_iff_not]
      rintro rfl
      exact h (List.mem_reverse.1 hx))]
  simp

/-- **C111 in part** (missing: files with several headers, files without newline at the end): in a file with one
header, whose lines all end with a newline, the equation found is the text behind the last comma of the line whose
number was requested, counted from the header on, whatever the lines before and behind. -/
theorem C111_table_partial {pre table : List Line} {head : Line} (hpre : ∀ l ∈ pre, '\n' ∉ l ∧ isHeader l = false)
    (hhead : '\n' ∉ head ∧ isHeader head = true) (htab : ∀ l ∈ table, '\n' ∉ l ∧ isHeader l = false) {k : Nat}
    (hk : k < table.length) {a eq : Line} (hline : table[k] = a ++ ',' :: eq) (heq : ',' ∉ eq) :
    fromFile k (some (textOf (pre ++ head :: table))) = .ok eq := by
  unfold fromFile
  have hlen := textOf_length (pre ++ head :: table)
  rw [List.length_append, List.length_cons] at hlen
  obtain ⟨f, hf⟩ : ∃ f, (textOf (pre ++ head :: table)).length + 2 = pre.length + (((table.drop (k + 1)).length + (f + 1)) + 1) := by
    rw [List.length_drop]
    refine ⟨(textOf (pre ++ head :: table)).length + 2 - pre.length - (table.length - (k + 1)) - 2, ?_⟩
    omega
  dsimp only
  rw [hf, textOf_append]
  obtain ⟨line', e⟩ := scan_pass pre hpre (((table.drop (k + 1)).length + (f + 1)) + 1) k (textOf (head :: table)) [] []
  refine e.trans ?_
  rw [textOf_cons, scan, getline_line hhead.1]
  have hne : head.isEmpty = false := by
    cases head with
    | nil => exact absurd hhead.2 (by decide)
    | cons => rfl
  simp only [Bool.not_true, Bool.false_eq_true, if_false, hne, hhead.2, if_true]
  rw [skip_lines k table (fun l h => (htab l h).1) [] hk]
  have hne' : (table[k] : Line).isEmpty = false := by rw [hline]; cases a <;> rfl
  simp only [hne', bne_self_eq_false, Bool.or_self, Bool.false_eq_true, if_false]
  rw [hline, afterComma_eq heq]
  dsimp only
  obtain ⟨line'', e'⟩ := scan_pass (table.drop (k + 1)) (fun l h => htab l (List.mem_of_mem_drop h)) (f + 1) 0 [] 
    (a ++ ',' :: eq) eq
  rw [List.append_nil] at e'
  rw [e', scan, getline_end]
  simp

/-- **C111**: when lines end with a newline, asking for an equation behind the last one throws. -/
theorem C111_beyond {pre table : List Line} {head : Line} (hpre : ∀ l ∈ pre, '\n' ∉ l ∧ isHeader l = false)
    (hhead : '\n' ∉ head ∧ isHeader head = true) (htab : ∀ l ∈ table, '\n' ∉ l) {k : Nat} (hk : table.length ≤ k) :
    fromFile k (some (textOf (pre ++ head :: table))) = .err "Cannot find Bingo equation requested." := by
  unfold fromFile
  have hlen := textOf_length (pre ++ head :: table)
  rw [List.length_append, List.length_cons] at hlen
  obtain ⟨f, hf⟩ : ∃ f, (textOf (pre ++ head :: table)).length + 2 = pre.length + (f + 1) :=
    ⟨(textOf (pre ++ head :: table)).length + 2 - pre.length - 1, by omega⟩
  dsimp only
  rw [hf, textOf_append]
  obtain ⟨line', e⟩ := scan_pass pre hpre (f + 1) k (textOf (head :: table)) [] []
  refine e.trans ?_
  rw [textOf_cons, scan, getline_line hhead.1]
  have hne : head.isEmpty = false := by
    cases head with
    | nil => exact absurd hhead.2 (by decide)
    | cons => rfl
  simp only [Bool.not_true, Bool.false_eq_true, if_false, hne, hhead.2, if_true]
  rw [skip_beyond k table htab [] hk]
  simp

/-- **C111**: a file without header has no equation. -/
theorem C111_no_header {ls : List Line} (hls : ∀ l ∈ ls, '\n' ∉ l ∧ isHeader l = false) (k : Nat) (arg : Int) {p : Params}
    (he : p.equation = none) (hf : p.file = some (some (textOf ls))) (hk : numberOf arg p = k) :
    equationOf arg p = .err "No custom equation found." := by
  unfold equationOf
  rw [he, hf, hk]
  dsimp only
  rw [if_neg (by omega), Int.toNat_natCast]
  unfold fromFile
  have hlen := textOf_length ls
  obtain ⟨f, hf⟩ : ∃ f, (textOf ls).length + 2 = ls.length + (f + 1) := ⟨(textOf ls).length + 1 - ls.length, by omega⟩
  obtain ⟨line', e⟩ := scan_pass ls hls (f + 1) k [] [] []
  rw [List.append_nil] at e
  dsimp only
  rw [hf, e, scan, getline_end]
  rfl

/-- **C111**: an equation of the parameter list is used whatever the file. -/
theorem C111_inline {R : Type} [Zero R] (eval : Line → Res (Option R)) (arg : Int) {p : Params} {eq : Line}
    (he : p.equation = some eq) (hne : eq ≠ []) {x : R} (hx : eval eq = .ok (some x)) :
    value eval arg p = .ok x := by
  unfold value equationOf
  rw [he]
  cases eq with
  | nil => exact absurd rfl hne
  | cons c l =>
    simp only [Res.pure_eq, Res.ok_bind, List.isEmpty_cons, Bool.false_eq_true, if_false]
    rw [hx]
    rfl

/-- **C111 in part**: the value is that of the equation whose number is the argument, else that of the parameter list,
else zero. -/
theorem C111_value_partial {R : Type} [Zero R] (eval : Line → Res (Option R)) {pre table : List Line} {head : Line}
    (hpre : ∀ l ∈ pre, '\n' ∉ l ∧ isHeader l = false) (hhead : '\n' ∉ head ∧ isHeader head = true)
    (htab : ∀ l ∈ table, '\n' ∉ l ∧ isHeader l = false) {k : Nat} (hk : k < table.length) {a eq : Line}
    (hline : table[k] = a ++ ',' :: eq) (heq : ',' ∉ eq) (hne : eq ≠ []) {x : R} (hx : eval eq = .ok (some x))
    {arg : Int} {p : Params} (he : p.equation = none) (hf : p.file = some (some (textOf (pre ++ head :: table))))
    (harg : arg = k ∨ (arg < 0 ∧ p.number = some (k : Int)) ∨ (arg < 0 ∧ p.number = none ∧ k = 0)) :
    value eval arg p = .ok x := by
  have hnum : numberOf arg p = k := by
    unfold numberOf
    rcases harg with rfl | ⟨h1, h2⟩ | ⟨h1, h2, rfl⟩
    · rw [if_neg (by omega)]
    · rw [if_pos h1, h2, Option.getD_some]
    · rw [if_pos h1, h2, Option.getD_none]
      rfl
  have : equationOf arg p = .ok eq := by
    unfold equationOf
    rw [he, hf, hnum]
    dsimp only
    rw [if_neg (by omega), Int.toNat_natCast, C111_table_partial hpre hhead htab hk hline heq, Res.ok_bind]
    cases eq with
    | nil => exact absurd rfl hne
    | cons => rfl
  unfold value
  rw [this, Res.ok_bind, hx, Res.ok_bind]
  rfl

/-- **C111 is false for the end of the file**: in every file whose last line is an equation without newline, the request
for the equation behind the last one is answered with the last one. -/
theorem C111_end_false {pre table : List Line} {head last a eq : Line}
    (hpre : ∀ l ∈ pre, '\n' ∉ l ∧ isHeader l = false) (hhead : '\n' ∉ head ∧ isHeader head = true)
    (htab : ∀ l ∈ table, '\n' ∉ l) (hlast : last = a ++ ',' :: eq) (hn : '\n' ∉ last) (heq : ',' ∉ eq) :
    fromFile (table.length + 1) (some (textOf (pre ++ head :: table) ++ last)) = .ok eq := by
  have hle : last ≠ [] := by rw [hlast]; simp
  have key : ∀ (ls : List Line) (line : Line), (∀ l ∈ ls, '\n' ∉ l) →
      skip (ls.length + 1) (good (textOf ls ++ last)) line = (0, ⟨[], true, true⟩, last) := by
    intro ls
    induction ls with
    | nil =>
      intro line _
      rw [List.length_nil, skip, show textOf [] ++ last = last from rfl, getline_last hn hle]
      simp only [if_true]
      rw [skip]
      simp [getline]
    | cons l ls ih =>
      intro line h
      rw [skip, textOf_cons, List.append_assoc, List.cons_append, getline_line (h l (by simp))]
      simp only [if_true]
      exact ih _ fun l' h' => h l' (List.mem_cons_of_mem _ h')
  unfold fromFile
  have hlen := textOf_length (pre ++ head :: table)
  rw [List.length_append, List.length_cons] at hlen
  obtain ⟨f, hf⟩ : ∃ f, (textOf (pre ++ head :: table) ++ last).length + 2 = pre.length + ((f + 1) + 1) := by
    rw [List.length_append]
    exact ⟨(textOf (pre ++ head :: table)).length + last.length + 2 - pre.length - 2, by omega⟩
  dsimp only
  rw [hf, textOf_append, List.append_assoc]
  obtain ⟨line', e⟩ := scan_pass pre hpre ((f + 1) + 1) (table.length + 1) (textOf (head :: table) ++ last) [] []
  refine e.trans ?_
  rw [textOf_cons, List.append_assoc, List.cons_append, scan, getline_line hhead.1]
  have hne : head.isEmpty = false := by
    cases head with
    | nil => exact absurd hhead.2 (by decide)
    | cons => rfl
  simp only [Bool.not_true, Bool.false_eq_true, if_false, hne, hhead.2, if_true]
  rw [key table [] htab]
  have hne' : last.isEmpty = false := by rw [hlast]; cases a <;> rfl
  simp only [hne', bne_self_eq_false, Bool.or_self, Bool.false_eq_true, if_false]
  rw [hlast, afterComma_eq heq]
  simp [scan, getline]

/-- **C111 is false for several headers**: the equation found is the first one behind the second header, whatever
number was requested. -/
theorem C111_headers_false {pre t1 t2 : List Line} {head head' first a a' eq eq' : Line}
    (hpre : ∀ l ∈ pre, '\n' ∉ l ∧ isHeader l = false) (hhead : '\n' ∉ head ∧ isHeader head = true)
    (ht1 : ∀ l ∈ t1, '\n' ∉ l ∧ isHeader l = false) (hhead' : '\n' ∉ head' ∧ isHeader head' = true)
    (ht2 : ∀ l ∈ t2, '\n' ∉ l ∧ isHeader l = false) {k : Nat} (hk : k < t1.length) (hline : t1[k] = a ++ ',' :: eq)
    (heq : ',' ∉ eq) (hfirst : first = a' ++ ',' :: eq') (hfn : '\n' ∉ first) (heq' : ',' ∉ eq') :
    fromFile k (some (textOf (pre ++ head :: (t1 ++ head' :: first :: t2)))) = .ok eq' := by
  unfold fromFile
  have hlen := textOf_length (pre ++ head :: (t1 ++ head' :: first :: t2))
  simp only [List.length_append, List.length_cons] at hlen
  obtain ⟨f, hf⟩ : ∃ f, (textOf (pre ++ head :: (t1 ++ head' :: first :: t2))).length + 2 =
      pre.length + (((t1.drop (k + 1)).length + ((t2.length + (f + 1)) + 1)) + 1) := by
    rw [List.length_drop]
    refine ⟨(textOf (pre ++ head :: (t1 ++ head' :: first :: t2))).length + 2 - pre.length - (t1.length - (k + 1)) -
      t2.length - 3, ?_⟩
    omega
  dsimp only
  rw [hf, textOf_append]
  obtain ⟨line', e⟩ := scan_pass pre hpre (((t1.drop (k + 1)).length + ((t2.length + (f + 1)) + 1)) + 1) k
    (textOf (head :: (t1 ++ head' :: first :: t2))) [] []
  refine e.trans ?_
  have hne : ∀ h : Line, isHeader h = true → h.isEmpty = false := by
    intro h hh
    cases h with
    | nil => exact absurd hh (by decide)
    | cons => rfl
  have hall : ∀ l ∈ t1 ++ head' :: first :: t2, '\n' ∉ l := by
    intro l hl
    simp only [List.mem_append, List.mem_cons] at hl
    rcases hl with h | rfl | rfl | h
    · exact (ht1 l h).1
    · exact hhead'.1
    · exact hfn
    · exact (ht2 l h).1
  rw [textOf_cons, scan, getline_line hhead.1]
  simp only [Bool.not_true, Bool.false_eq_true, if_false, hne head hhead.2, hhead.2, if_true]
  rw [skip_lines k _ hall [] (by rw [List.length_append]; omega)]
  have hg : (t1 ++ head' :: first :: t2)[k]'(by rw [List.length_append]; omega) = a ++ ',' :: eq := by
    rw [List.getElem_append_left hk, hline]
  have hne' : (a ++ ',' :: eq : Line).isEmpty = false := by cases a <;> rfl
  have hne'' : (a' ++ ',' :: eq' : Line).isEmpty = false := by cases a' <;> rfl
  simp only [hg, hne', bne_self_eq_false, Bool.or_self, Bool.false_eq_true, if_false]
  rw [afterComma_eq heq]
  dsimp only
  rw [List.drop_append_of_le_length (by omega), textOf_append]
  obtain ⟨line'', e'⟩ := scan_pass (t1.drop (k + 1)) (fun l h => ht1 l (List.mem_of_mem_drop h))
    ((t2.length + (f + 1)) + 1) 0 (textOf (head' :: first :: t2)) (a ++ ',' :: eq) eq
  rw [e', textOf_cons, scan, getline_line hhead'.1]
  simp only [Bool.not_true, Bool.false_eq_true, if_false, hne head' hhead'.2, hhead'.2, if_true]
  rw [skip, textOf_cons, getline_line hfn, hfirst]
  simp only [hne'', bne_self_eq_false, Bool.or_self, Bool.false_eq_true, if_false]
  rw [afterComma_eq heq']
  dsimp only
  obtain ⟨line3, e3⟩ := scan_pass t2 ht2 (f + 1) 0 [] (a' ++ ',' :: eq') eq'
  rw [List.append_nil] at e3
  rw [e3, scan, getline_end]
  simp

/-- **C111 is false for equations that are not valid**: the value is zero, without error. -/
theorem C111_invalid_false {R : Type} [Zero R] (eval : Line → Res (Option R)) (arg : Int) {p : Params} {eq : Line}
    (he : equationOf arg p = .ok eq) (hx : eval eq = .ok none) : value eval arg p = .ok 0 := by
  unfold value
  rw [he, Res.ok_bind, hx, Res.ok_bind]
  rfl

/-- A header. -/
def headLine : Line := ['F', 'I', 'T', 'N', 'E', 'S', 'S', ' ', 'C', 'O', 'M', 'P', 'L', 'E', 'X', 'I', 'T', 'Y', ' ', 'E', 'Q', 'U', 'A', 'T', 'I', 'O', 'N']

/-- Two equations. -/
def sample : List Line := [['0', ',', '0', ',', 'E', '/', '(', '1', '+', 'v', ')'], ['0', '.', '6', ',', '3', ',', 'X', '_', '1']]

example : isHeader headLine = true ∧ (∀ l ∈ sample, '\n' ∉ l ∧ isHeader l = false) := by
  decide

/-- The second equation of the sample, and hypotheses of the theorems on files. -/
example : sample[1] = ['0', '.', '6', ',', '3'] ++ ',' :: ['X', '_', '1'] ∧ ',' ∉ ['X', '_', '1'] := by decide

example : fromFile 1 (some (textOf ([['t', 'e', 'x', 't']] ++ headLine :: sample))) =
    .ok ['X', '_', '1'] :=
  C111_table_partial (by decide) (by decide) (by decide) (by decide) (a := ['0', '.', '6', ',', '3']) (by decide) (by decide)

/-- Without the last newline, equation number two of two is answered. -/
example : fromFile 2 (some (textOf ([] ++ headLine ::
    [['0', ',', '0', ',', 'E', '/', '(', '1', '+', 'v', ')']]) ++ ['0', '.', '6', ',', '3', ',', 'X', '_', '1'])) = .ok ['X', '_', '1'] :=
  C111_end_false (by decide) (by decide) (by decide) (a := ['0', '.', '6', ',', '3']) (by decide) (by decide) (by decide)

/-- Two tables: the second equation of the first table is requested, the first one of the second table is answered. -/
example : fromFile 1 (some (textOf ([] ++ headLine :: (sample ++ headLine :: ['0', ',', 'Y'] :: [])))) = .ok ['Y'] :=
  C111_headers_false (by decide) (by decide) (by decide) (by decide) (by decide) (by decide)
    (a := ['0', '.', '6', ',', '3']) (eq := ['X', '_', '1']) (by decide) (by decide) (a' := ['0']) (by decide) (by decide)
    (by decide)

end Plato.Bingo
