import Verif.Expr.Parse
import Mathlib.Data.List.Chain

/-!
# The text of a well formed expression is split into its tokens
-/

namespace Plato.Ee

variable {K : Type}

/-- How a token is written. -/
def spell : Tok → List Char
  | .space => [' ']
  | .openP => ['('] | .closeP => [')'] | .bar => ['|'] | .plus => ['+'] | .minus => ['-']
  | .star => ['*'] | .slash => ['/'] | .caret => ['^'] | .bang => ['!'] | .comma => [',']
  | .fn .sin => ['s', 'i', 'n'] | .fn .cos => ['c', 'o', 's'] | .fn .tan => ['t', 'a', 'n']
  | .fn .exponential => ['e', 'x', 'p'] | .fn .log => ['l', 'o', 'g']
  | .fn .sqrt => ['s', 'q', 'r', 't'] | .fn .abs => ['a', 'b', 's']
  | .fn _ => []
  | .powName => ['p', 'o', 'w']
  | .pi => ['P', 'I']
  | .num s => s
  | .var s => s
  | .bad => []

theorem words_eq : ∀ e : Expr, e.words = e.toks.map spell
  | .num s => rfl
  | .pi => rfl
  | .var s => rfl
  | .paren e => by simp [Expr.words, Expr.toks, words_eq e, spell]
  | .bars e => by simp [Expr.words, Expr.toks, words_eq e, spell]
  | .sgn neg e => by cases neg <;> simp [Expr.words, Expr.toks, words_eq e, spell]
  | .bin op a b => by
    cases op <;> simp [Expr.words, Expr.toks, words_eq a, words_eq b, spell, BinOp.sym, BinOp.tok]
  | .fact e => by simp [Expr.words, Expr.toks, words_eq e, spell]
  | .fn f e => by cases f <;> simp [Expr.words, Expr.toks, words_eq e, spell, Fn.name, Fn.id]
  | .pow2 a b => by simp [Expr.words, Expr.toks, words_eq a, words_eq b, spell]
  | .juxt a b => by simp [Expr.words, Expr.toks, words_eq a, words_eq b]

/-- Tokens that occur in well formed expressions. -/
def TokOK : Tok → Prop
  | .num s => NumLit s
  | .var s => VarName s
  | .fn f => ∃ g : Fn, f = g.id
  | .space => False
  | .bad => False
  | _ => True

/-- Tokens that extend as far as possible. -/
def isWordTok : Tok → Bool
  | .num _ | .var _ => true
  | _ => false

/-- Tokens that begin with a character which ends a word. -/
def isSymTok : Tok → Bool
  | .num _ | .var _ | .fn _ | .powName | .pi | .space | .bad => false
  | _ => true

/-- A word is followed by a symbol. -/
def Sep (a b : Tok) : Prop := isWordTok a = true → isSymTok b = true

theorem chain_mid {l1 l2 : List Tok} {x : Tok} (h1 : l1.IsChain Sep) (h2 : (x :: l2).IsChain Sep)
    (hx : isSymTok x = true) : (l1 ++ x :: l2).IsChain Sep := by
  rw [List.isChain_append]
  refine ⟨h1, h2, fun a _ y hy => ?_⟩
  simp at hy
  subst hy
  exact fun _ => hx

theorem chain_cons {l : List Tok} {x : Tok} (h : l.IsChain Sep) (hx : isWordTok x = false) :
    (x :: l).IsChain Sep := by
  rw [List.isChain_cons]
  exact ⟨fun y _ hw => by simp [hx] at hw, h⟩

theorem endsParen_last : ∀ (e : Expr), e.endsParen = true → e.toks.getLast? = some .closeP
  | .paren e, _ => by simp [Expr.toks, List.getLast?_cons, List.getLast?_append]
  | .pow2 a b, _ => by simp [Expr.toks, List.getLast?_cons, List.getLast?_append]
  | .bin op a b, h => by
    have := endsParen_last b h
    simp [Expr.toks, List.getLast?_append, List.getLast?_cons, this]
  | .sgn neg e, h => by
    have := endsParen_last e h
    simp [Expr.toks, List.getLast?_cons, this]
  | .fn f e, h => by
    have := endsParen_last e h
    simp [Expr.toks, List.getLast?_cons, this]
  | .juxt a b, h => by
    have := endsParen_last b h
    simp [Expr.toks, List.getLast?_append, this]

theorem binop_sym (op : BinOp) : isSymTok op.tok = true ∧ isWordTok op.tok = false := by
  cases op <;> exact ⟨rfl, rfl⟩

theorem toks_chain : ∀ (e : Expr) (b : Bool), e.WF b → e.toks.IsChain Sep
  | .num s, _, _ => by simp [Expr.toks]
  | .pi, _, _ => by simp [Expr.toks]
  | .var s, _, _ => by simp [Expr.toks]
  | .paren e, _, h => chain_cons (chain_mid (toks_chain e _ h) (by simp) rfl) rfl
  | .bars e, _, h => chain_cons (chain_mid (toks_chain e _ h.2) (by simp) rfl) rfl
  | .sgn neg e, b, h => chain_cons (toks_chain e _ h.2) (by cases neg <;> rfl)
  | .bin op x y, b, h => chain_mid (toks_chain x _ h.2.2.1)
      (chain_cons (toks_chain y _ h.2.2.2) (binop_sym op).2) (binop_sym op).1
  | .fact e, b, h => chain_mid (toks_chain e _ h.2) (by simp) rfl
  | .fn f e, b, h => chain_cons (toks_chain e _ h.2) rfl
  | .pow2 x y, b, h => chain_cons (chain_cons (chain_mid (toks_chain x _ h.2.2.1)
      (chain_cons (chain_mid (toks_chain y _ h.2.2.2) (by simp) rfl) rfl) rfl) rfl) rfl
  | .juxt x y, b, h => by
    show (x.toks ++ y.toks).IsChain Sep
    rw [List.isChain_append]
    refine ⟨toks_chain x _ h.2.2.2.2.1, toks_chain y _ h.2.2.2.2.2, fun a ha y _ hw => ?_⟩
    rw [endsParen_last x h.2.2.1] at ha
    simp at ha
    subst ha
    simp [isWordTok] at hw

theorem toks_ok : ∀ (e : Expr) (b : Bool), e.WF b → ∀ t ∈ e.toks, TokOK t
  | .num s, _, h => by
    intro t ht
    simp [Expr.toks] at ht
    subst ht
    exact h
  | .pi, _, _ => by simp [Expr.toks, TokOK]
  | .var s, _, h => by
    intro t ht
    simp [Expr.toks] at ht
    subst ht
    exact h
  | .paren e, _, h => by
    have := toks_ok e _ h
    simp only [Expr.toks, List.mem_cons, List.mem_append, List.not_mem_nil, or_false]
    rintro t (rfl | ht | rfl)
    · trivial
    · exact this t ht
    · trivial
  | .bars e, _, h => by
    have := toks_ok e _ h.2
    simp only [Expr.toks, List.mem_cons, List.mem_append, List.not_mem_nil, or_false]
    rintro t (rfl | ht | rfl)
    · trivial
    · exact this t ht
    · trivial
  | .sgn neg e, b, h => by
    have := toks_ok e _ h.2
    simp only [Expr.toks, List.mem_cons]
    rintro t (rfl | ht)
    · cases neg <;> trivial
    · exact this t ht
  | .bin op x y, b, h => by
    have h1 := toks_ok x _ h.2.2.1
    have h2 := toks_ok y _ h.2.2.2
    simp only [Expr.toks, List.mem_cons, List.mem_append]
    rintro t (ht | rfl | ht)
    · exact h1 t ht
    · cases op <;> trivial
    · exact h2 t ht
  | .fact e, b, h => by
    have := toks_ok e _ h.2
    simp only [Expr.toks, List.mem_cons, List.mem_append, List.not_mem_nil, or_false]
    rintro t (ht | rfl)
    · exact this t ht
    · trivial
  | .fn f e, b, h => by
    have := toks_ok e _ h.2
    simp only [Expr.toks, List.mem_cons]
    rintro t (rfl | ht)
    · exact ⟨f, rfl⟩
    · exact this t ht
  | .pow2 x y, b, h => by
    have h1 := toks_ok x _ h.2.2.1
    have h2 := toks_ok y _ h.2.2.2
    simp only [Expr.toks, List.mem_cons, List.mem_append, List.not_mem_nil, or_false]
    rintro t (rfl | rfl | ht | rfl | ht | rfl)
    · trivial
    · trivial
    · exact h1 t ht
    · trivial
    · exact h2 t ht
    · trivial
  | .juxt x y, b, h => by
    have h1 := toks_ok x _ h.2.2.2.2.1
    have h2 := toks_ok y _ h.2.2.2.2.2
    simp only [Expr.toks, List.mem_append]
    rintro t (ht | ht)
    · exact h1 t ht
    · exact h2 t ht

/-! ### Characters -/

theorem isDigit_eq (c : Char) : isDigit c = c.isDigit := rfl

theorem isNameStart_eq (c : Char) : isNameStart c = isLetter c := by
  simp only [isNameStart, isLetter, Char.isAlpha, Char.isUpper, Char.isLower]
  cases h : (c == '_') <;> simp <;> rw [Bool.or_comm] <;> rfl

/-- A character that ends numbers and names. -/
def isStop (c : Char) : Bool := !(c.isDigit || isLetter c || c == '.')

/-- The text is empty or begins with such a character. -/
def Stops : List Char → Prop
  | [] => True
  | c :: _ => isStop c = true

theorem blank_stop {c : Char} (h : isBlank c = true) : isStop c = true := by
  simp only [isBlank, Bool.or_eq_true, beq_iff_eq] at h
  rcases h with ((rfl | rfl) | rfl) | rfl <;> decide

theorem sym_stop {t : Tok} (h : isSymTok t = true) : ∃ c, spell t = [c] ∧ isStop c = true := by
  cases t <;> simp [isSymTok] at h <;> exact ⟨_, rfl, by decide⟩

theorem Layout.stops {toks : List Tok} {text : List Char} (h : Layout (toks.map spell) text)
    (hs : ∀ t ∈ toks.head?, isSymTok t = true) : Stops text := by
  cases toks with
  | nil =>
    cases h with
    | nil hb =>
      cases text with
      | nil => trivial
      | cons c l => exact blank_stop (hb c (by simp))
  | cons t toks =>
    rw [List.map_cons] at h
    obtain ⟨c, hc, hst⟩ := sym_stop (hs t (by simp))
    cases h with
    | cons hb hl =>
      rename_i b text
      cases b with
      | nil => rw [hc]; exact hst
      | cons d b => exact blank_stop (hb d (by simp))

theorem scanNumber_lit (rest : List Char) (hst : Stops rest) : ∀ (r : List Char) (buf : List Char)
    (c : Char), numTail r = true → buf.length + 1 + r.length ≤ 126 →
    scanNumber buf c (r ++ rest) = (buf ++ c :: r, rest, false) := by
  intro r
  fun_induction numTail r with
  | case1 =>
    intro buf c _ hlen
    simp only [List.length_nil] at hlen
    cases rest with
    | nil =>
      simp only [List.append_nil, scanNumber]
      rw [if_neg (by simp; omega)]
    | cons d rest =>
      simp only [Stops, isStop, Bool.not_eq_true', Bool.or_eq_false_iff] at hst
      have hde : (d == 'e') = false := by
        by_contra h
        simp at h
        subst h
        revert hst; decide
      simp only [List.nil_append, scanNumber]
      rw [if_neg (by simp; omega), if_neg (by simp [isDigit_eq, hst.1.1, hst.2]), if_neg (by simp [hde])]
  | case2 d r ih =>
    intro buf c h hlen
    simp only [Bool.and_eq_true] at h
    simp only [List.length_cons] at hlen
    simp only [List.cons_append]
    rw [scanNumber]
    rw [if_neg (by simp; omega), if_neg (by decide), if_pos (by decide), if_neg (by simp; omega)]
    show (if (isDigit d || d == '+' || d == '-') = true then
      scanNumber (buf ++ [c] ++ ['e']) d (r ++ rest)
      else (buf ++ [c] ++ ['e'], d :: (r ++ rest), false)) = _
    rw [if_pos (by rw [isDigit_eq]; exact h.1), ih _ _ h.2 (by simp; omega)]
    simp
  | case3 x r hx ih =>
    intro buf c h hlen
    simp only [Bool.and_eq_true] at h
    simp only [List.length_cons] at hlen
    simp only [List.cons_append]
    rw [scanNumber]
    rw [if_neg (by simp; omega), if_pos (by simpa [isDigit_eq] using h.1), ih _ _ h.2 (by simp; omega)]
    simp

theorem scanName_lit (rest : List Char) (hst : Stops rest) : ∀ (r : List Char) (buf : List Char)
    (c : Char), (∀ d ∈ r, (isLetter d || d.isDigit) = true) → buf.length + 1 + r.length ≤ 126 →
    scanName buf c (r ++ rest) = (buf ++ c :: r, rest, false) := by
  intro r
  induction r with
  | nil =>
    intro buf c _ hlen
    simp only [List.length_nil] at hlen
    cases rest with
    | nil =>
      simp only [List.append_nil, scanName]
      rw [if_neg (by simp; omega)]
    | cons d rest =>
      simp only [Stops, isStop, Bool.not_eq_true', Bool.or_eq_false_iff] at hst
      simp only [List.nil_append, scanName]
      rw [if_neg (by simp; omega),
        if_neg (by simp [isNameChar, isDigit_eq, isNameStart_eq, hst.1.1, hst.1.2])]
  | cons d r ih =>
    intro buf c h hlen
    simp only [List.length_cons] at hlen
    simp only [List.cons_append]
    rw [scanName]
    rw [if_neg (by simp; omega), if_pos (by
      simpa [isNameChar, isDigit_eq, isNameStart_eq] using h d (by simp)),
      ih _ _ (fun x hx => h x (by simp [hx])) (by simp; omega)]
    simp

/-- A name does not begin with a reserved word, whatever follows it. -/
theorem not_reserved {s rest : List Char} (hst : Stops rest) {w : List Char} (hw : w ∈ reserved)
    (h : ¬ w <+: s) : looksAt w (s ++ rest) = false := by
  by_contra hne
  obtain ⟨t, ht⟩ := looksAt_iff.mp (by simpa using hne)
  rcases List.append_eq_append_iff.mp ht with ⟨u, h1, h2⟩ | ⟨u, h1, h2⟩
  · -- `w` extends beyond the name
    cases u with
    | nil => exact h ⟨[], by simp [h1]⟩
    | cons x u =>
      rw [h2] at hst
      have hx : x ∈ w := by rw [h1]; simp
      have : ∀ w ∈ reserved, ∀ x ∈ w, isStop x = false := by decide
      rw [List.cons_append] at hst
      have h3 := this w hw x hx
      simp only [Stops] at hst
      rw [h3] at hst
      simp at hst
  · exact h ⟨u, h1.symm⟩

/-- Recognition of a token that stands at the beginning of the text. -/
theorem scan_tok {tok : Tok} (hok : TokOK tok) {rest : List Char}
    (hst : isWordTok tok = true → Stops rest) :
    scan (spell tok ++ rest) = .ok (tok, rest, false) := by
  cases tok with
  | space => exact hok.elim
  | bad => exact hok.elim
  | fn f => obtain ⟨g, rfl⟩ := hok; cases g <;> simp [Fn.id, spell, scan, looksAt]
  | num s =>
    obtain ⟨c, r, rfl, hc, hr, hlen⟩ := hok
    have hne : ∀ d : Char, d.isDigit = false → (c == d) = false := by
      intro d hd
      by_contra h
      simp at h
      subst h
      rw [hc] at hd; simp at hd
    have hne' : ∀ d : Char, d.isDigit = false → (d == c) = false := by
      intro d hd
      by_contra h
      simp at h
      subst h
      rw [hc] at hd; simp at hd
    have hl : ∀ (d : Char) (w : List Char), d.isDigit = false →
        looksAt (d :: w) (c :: (r ++ rest)) = false := by
      intro d w hd
      simp [looksAt, List.isPrefixOf, hne' d hd]
    simp only [spell, List.cons_append, scan]
    rw [hne _ (by decide), hne _ (by decide), hne _ (by decide), hne _ (by decide),
      hne _ (by decide), hne _ (by decide), hne _ (by decide), hne _ (by decide),
      hne _ (by decide), hne _ (by decide), hne _ (by decide), hne _ (by decide), hne _ (by decide),
      hne _ (by decide)]
    rw [hl _ _ (by decide), hl _ _ (by decide), hl _ _ (by decide), hl _ _ (by decide),
      hl _ _ (by decide), hl _ _ (by decide), hl _ _ (by decide), hl _ _ (by decide),
      hl _ _ (by decide)]
    rw [scanNumber_lit rest (hst rfl) r [] c hr (by simp at hlen ⊢; omega)]
    simp [isDigit_eq, hc]
  | var s =>
    obtain ⟨c, r, rfl, hc, hr, hlen, hres⟩ := hok
    have hne : ∀ d : Char, isLetter d = false → (c == d) = false := by
      intro d hd
      by_contra h
      simp at h
      subst h
      rw [hc] at hd; simp at hd
    have hl : ∀ w ∈ reserved, looksAt w (c :: (r ++ rest)) = false := fun w hw =>
      not_reserved (s := c :: r) (hst rfl) hw (hres w hw)
    have hnd : c.isDigit = false := by
      by_contra h
      have hd : c.isDigit = true := by simpa using h
      simp only [isLetter, Char.isAlpha, Char.isUpper, Char.isLower, Bool.or_eq_true,
        Bool.and_eq_true, decide_eq_true_eq, beq_iff_eq] at hc
      simp only [Char.isDigit, Bool.and_eq_true, decide_eq_true_eq] at hd
      rcases hc with (hc | hc) | rfl
      · have h1 := hd.2
        have h2 := hc.1
        exact absurd (UInt32.le_trans h2 h1) (by decide)
      · have h1 := hd.2
        have h2 := hc.1
        exact absurd (UInt32.le_trans h2 h1) (by decide)
      · revert hd; decide
    simp only [spell, List.cons_append, scan]
    rw [hne _ (by decide), hne _ (by decide), hne _ (by decide), hne _ (by decide),
      hne _ (by decide), hne _ (by decide), hne _ (by decide), hne _ (by decide),
      hne _ (by decide), hne _ (by decide), hne _ (by decide), hne _ (by decide), hne _ (by decide),
      hne _ (by decide)]
    rw [hl _ (by decide), hl _ (by decide), hl _ (by decide), hl _ (by decide), hl _ (by decide),
      hl _ (by decide), hl _ (by decide), hl _ (by decide), hl _ (by decide)]
    rw [scanName_lit rest (hst rfl) r [] c hr (by simp at hlen ⊢; omega)]
    simp [isDigit_eq, isNameStart_eq, hnd, hc]
  | _ => simp [spell, scan, looksAt]

theorem scan_blank {c : Char} (h : isBlank c = true) (rest : List Char) :
    scan (c :: rest) = .ok (.space, rest, false) := by
  simp only [scan]
  rw [if_pos (show (c == ' ' || c == '\t' || c == '\r' || c == '\n') = true from h)]

theorem spell_ne {tok : Tok} (hok : TokOK tok) : spell tok ≠ [] := by
  cases tok with
  | num s => obtain ⟨c, r, rfl, _⟩ := hok; simp [spell]
  | var s => obtain ⟨c, r, rfl, _⟩ := hok; simp [spell]
  | fn f => obtain ⟨g, rfl⟩ := hok; cases g <;> simp [Fn.id, spell]
  | space => exact hok.elim
  | bad => exact hok.elim
  | _ => simp [spell]

theorem loop_accepts {root : Nat} {ops : Ops K} {total n : Nat} {st : PState K} {c' : Cfg K}
    {tok : Tok} {text rest : List Char} (hne : text ≠ []) (hs : scan text = .ok (tok, rest, false))
    (ha : Accepts root ops st (total - rest.length - 1) tok c') : ∃ st', Sim root st' c' ∧
      loop ops total (n + 1) st text = loop ops total n st' rest := by
  obtain ⟨d, text, rfl⟩ := List.exists_cons_of_ne_nil hne
  obtain ⟨p, hp, hrest⟩ := ha
  simp only [loop, hs, Res.ok_bind, Bool.false_eq_true, if_false, hp]
  cases p with
  | brk st' => exact hrest.elim
  | cont st' => exact ⟨st', hrest, rfl⟩
  | item st' node info =>
    obtain ⟨st2, h1, h2⟩ := hrest
    exact ⟨st2, h2, by simp [h1]⟩

theorem loop_blanks {ops : Ops K} {total : Nat} {st : PState K} (hbad : st.bad = false)
    {text : List Char} : ∀ {b : List Char} {n : Nat}, (∀ c ∈ b, isBlank c = true) →
    loop ops total (n + b.length) st (b ++ text) = loop ops total n st text
  | [], n, _ => rfl
  | c :: b, n, h => by
    rw [← loop_blanks hbad (b := b) (n := n) fun x hx => h x (by simp [hx])]
    show loop ops total ((n + b.length) + 1) st (c :: (b ++ text)) = _
    simp only [loop, scan_blank (h c (by simp)), Res.ok_bind, Bool.false_eq_true, if_false, pre]

/-- The loop on the text of accepted tokens. -/
theorem loop_layout {root : Nat} {ops : Ops K} {total : Nat} : ∀ {toks : List Tok} {text : List Char}
    {n : Nat} {st : PState K} {c c' : Cfg K}, Layout (toks.map spell) text →
    toks.IsChain Sep → (∀ t ∈ toks, TokOK t) → Sim root st c → crun ops c toks = some c' →
    text.length < n → ∃ st', loop ops total n st text = .ok (st', [], true) ∧ Sim root st' c'
  | [], text, n, st, c, c', hl, _, _, hsim, hrun, hn => by
    cases hl with
    | nil hb =>
      obtain ⟨k, rfl⟩ : ∃ k, n = k + 1 + text.length := ⟨n - text.length - 1, by omega⟩
      have := loop_blanks (ops := ops) (total := total) hsim.bad (text := []) (n := k + 1) hb
      rw [List.append_nil] at this
      cases hrun
      exact ⟨st, by rw [this]; rfl, hsim⟩
  | tok :: toks, text, n, st, c, c', hl, hch, hok, hsim, hrun, hn => by
    rw [List.map_cons] at hl
    cases hl with
    | cons hb hl' =>
      rename_i b text
      have hne := spell_ne (hok tok (by simp))
      have hpos : 0 < (spell tok).length := List.length_pos_of_ne_nil hne
      simp only [List.length_append] at hn
      obtain ⟨k, rfl⟩ : ∃ k, n = (k + 1) + b.length := ⟨n - b.length - 1, by omega⟩
      rw [List.append_assoc, loop_blanks hsim.bad hb]
      rw [List.isChain_cons] at hch
      have hscan := scan_tok (hok tok (by simp)) (rest := text) fun hw =>
        hl'.stops fun t ht => hch.1 t ht hw
      simp only [crun] at hrun
      cases hc1 : cstep ops c tok with
      | none => simp [hc1] at hrun
      | some c1 =>
        rw [hc1] at hrun
        simp only [Option.bind_some] at hrun
        obtain ⟨st1, hsim1, hloop⟩ := loop_accepts (total := total) (n := k) (by simp [hne]) hscan
          (sim_step hsim (total - text.length - 1) hc1)
        rw [hloop]
        exact loop_layout hl' hch.2 (fun t ht => hok t (by simp [ht])) hsim1 hrun (by omega)

end Plato.Ee
