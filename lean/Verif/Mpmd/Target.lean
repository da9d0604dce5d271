import Verif.Mpmd.StaleToy

/-!
# Targets of parameters (C95)

Specification: a target is written from the names of lists and the name of an entry, or the name of an array and an
index; an assignment to it changes this entry or this component and nothing else.
-/

namespace Plato.Mpmd
open Plato

/-- The target of an entry of nested lists: `[a]:[b]:leaf`. -/
def target : List Str → Str → Str
  | [], leaf => leaf
  | n :: path, leaf => '[' :: (n ++ ']' :: ':' :: target path leaf)

/-- A component of an array: `name(i)`. -/
def component (name : Str) (i : Nat) : Str := name ++ '(' :: (Nat.toDigits 10 i ++ [')'])

/-- A name that stands for itself in a target. -/
structure Plain (leaf : Str) : Prop where
  ne : leaf ≠ []
  colon : ':' ∉ leaf
  list : leaf.head? ≠ some '[' ∨ leaf.getLast? ≠ some ']'

theorem splitGo_app {d : Char} : ∀ (s cur t : Str), d ∉ s → splitGo d cur (s ++ d :: t) = (cur ++ s) :: splitGo d [] t
  | [], cur, t, _ => by simp [splitGo]
  | c :: s, cur, t, h => by
    have hc : c ≠ d := fun e => h (by simp [e])
    have hs : d ∉ s := fun e => h (by simp [e])
    rw [List.cons_append, splitGo, if_neg hc, splitGo_app s _ t hs]
    simp

theorem splitGo_end {d : Char} : ∀ (s cur : Str), d ∉ s → cur ++ s ≠ [] → splitGo d cur s = [cur ++ s]
  | [], cur, _, h => by
    simp only [List.append_nil] at h
    simp [splitGo, h]
  | c :: s, cur, h, _ => by
    have hc : c ≠ d := fun e => h (by simp [e])
    have hs : d ∉ s := fun e => h (by simp [e])
    rw [splitGo, if_neg hc, splitGo_end s _ hs (by simp)]
    simp

/-- Tokens of a target. -/
theorem split_target : ∀ (path : List Str) (leaf : Str), (∀ n ∈ path, ':' ∉ n) → leaf ≠ [] → ':' ∉ leaf →
    split (target path leaf) ':' = path.map (fun n => '[' :: (n ++ [']'])) ++ [leaf]
  | [], leaf, _, h1, h2 => by simpa [split, target] using splitGo_end leaf [] h2 (by simpa using h1)
  | n :: path, leaf, hp, h1, h2 => by
    have hn : ':' ∉ ('[' :: (n ++ [']'])) := by
      simp only [List.mem_cons, List.mem_append, List.not_mem_nil, or_false, not_or]
      exact ⟨by decide, hp n (by simp), by decide⟩
    have := splitGo_app ('[' :: (n ++ [']'])) [] (target path leaf) hn
    simp only [List.cons_append, List.append_assoc, List.nil_append] at this
    rw [target, split, this]
    have ih := split_target path leaf (fun x hx => hp x (by simp [hx])) h1 h2
    rw [split] at ih
    rw [ih]
    simp

theorem getInner_list {p : Params} {pre : List Str} {n : Str} {rest : List Str} (h : p.isSub (pre ++ [n]) = true) :
    getInnerList p pre (('[' :: (n ++ [']'])) :: rest) = getInnerList p (pre ++ [n]) rest := by
  rw [getInnerList, if_pos ⟨rfl, by simp [List.getLast?_cons]⟩]
  simp [h]

theorem getInner_leaf {p : Params} {pre : List Str} {leaf : Str} {rest : List Str} (h : Plain leaf) :
    getInnerList p pre (leaf :: rest) = .ok (pre, leaf :: rest) := by
  cases leaf with
  | nil => exact absurd rfl h.ne
  | cons c s =>
    rw [getInnerList, if_neg]
    rintro ⟨h1, h2⟩
    rcases h.list with hl | hl
    · exact hl (by simp [h1])
    · exact hl h2

/-- The list of a target is found if all lists on the way exist. -/
theorem getInner_target {p : Params} {leaf : Str} (hl : Plain leaf) : ∀ (path pre : List Str),
    (∀ q, q ≠ [] → q <+: path → p.isSub (pre ++ q) = true) →
    getInnerList p pre (path.map (fun n => '[' :: (n ++ [']'])) ++ [leaf]) = .ok (pre ++ path, [leaf])
  | [], pre, _ => by simpa using getInner_leaf hl
  | n :: path, pre, h => by
    rw [List.map_cons, List.cons_append, getInner_list (h [n] (by simp) (by simp)),
      getInner_target hl path (pre ++ [n]) ?_]
    · simp
    · intro q hq hpq
      have := h (n :: q) (by simp) (by simpa using hpq)
      simpa using this

/-- The list is found, and the last token is left. -/
theorem parseInline_target {p : Params} {path : List Str} {leaf : Str} {v : ℝ} (hl : Plain leaf)
    (hp : ∀ n ∈ path, ':' ∉ n) (hs : ∀ q, q ≠ [] → q <+: path → p.isSub q = true) :
    parseInline p (target path leaf) v = setParameterValue p path [leaf] v := by
  unfold parseInline
  rw [split_target path leaf hp hl.ne hl.colon, getInner_target hl path [] (by simpa using hs)]
  rfl

/-- `q` differs from `p` in the entry at `r` only, which has the value `e`. -/
structure Assigned (p q : Params) (r : List Str) (e : Entry) : Prop where
  entry : q.val r = some e
  others : ∀ s, ¬ r <+: s → q.val s = p.val s
  lists : ∀ s, ¬ r <+: s → q.isSub s = p.isSub s

theorem assigned_set (p : Params) (r : List Str) (e : Entry) : Assigned p (p.set r e) r e where
  entry := by simp [Params.set]
  others s h := by
    have : s ≠ r := fun k => h (k ▸ List.prefix_refl _)
    simp [Params.set, h, this]
  lists s h := by simp [Params.set, h]

/-- **C95.**  A parameter with the target `[a]:[b]:…:name`, for lists of any depth that exist, sets the entry of this
name in this list to the value, and changes no other entry of any list. -/
theorem C95_scalar {p : Params} {path : List Str} {leaf : Str} {v : ℝ} (hl : Plain leaf) (hp : ∀ n ∈ path, ':' ∉ n)
    (hs : ∀ q, q ≠ [] → q <+: path → p.isSub q = true) (ho : '(' ∉ leaf ∨ ')' ∉ leaf) :
    ∃ q, parseInline p (target path leaf) v = .ok q ∧ Assigned p q (path ++ [leaf]) (.num v) := by
  refine ⟨_, ?_, assigned_set _ _ _⟩
  rw [parseInline_target hl hp hs, setParameterValue]
  change (match leaf.findIdx? (· == '('), leaf.findIdx? (· == ')') with
    | some p1, some p2 => _
    | _, _ => _) = _
  rcases ho with ho | ho
  · have : leaf.findIdx? (· == '(') = none := by
      rw [List.findIdx?_eq_none_iff]
      intro c hc
      simp only [beq_eq_false_iff_ne, ne_eq]
      rintro rfl
      exact ho hc
    rw [this]
    rfl
  · have : leaf.findIdx? (· == ')') = none := by
      rw [List.findIdx?_eq_none_iff]
      intro c hc
      simp only [beq_eq_false_iff_ne, ne_eq]
      rintro rfl
      exact ho hc
    rw [this]
    cases leaf.findIdx? (· == '(') <;> rfl

theorem digitsVal_eq : ∀ (s : Str) (n : Nat), (∀ c ∈ s, c.isDigit = true) → digitsVal n s = Nat.ofDigitChars 10 s n
  | [], n, _ => by simp [digitsVal]
  | c :: s, n, h => by
    rw [digitsVal, if_pos (h c (by simp)), digitsVal_eq s _ fun x hx => h x (by simp [hx]), Nat.ofDigitChars_cons]
    rfl

theorem strtol_digits {s : Str} (hne : s ≠ []) (h : ∀ c ∈ s, c.isDigit = true) :
    strtol s = some (Nat.ofDigitChars 10 s 0 : Int) := by
  cases s with
  | nil => exact absurd rfl hne
  | cons c s =>
    have hc := h c (by simp)
    have h1 : c ≠ '-' := by rintro rfl; revert hc; decide
    have h2 : c ≠ '+' := by rintro rfl; revert hc; decide
    have h3 : isSpace c = false := by
      unfold isSpace
      have : c ≠ ' ' ∧ c ≠ '\t' ∧ c ≠ '\n' ∧ c ≠ '\r' := by
        refine ⟨?_, ?_, ?_, ?_⟩ <;> (rintro rfl; revert hc; decide)
      simp [this.1, this.2.1, this.2.2.1, this.2.2.2]
    unfold strtol
    rw [List.dropWhile_cons_of_neg (by simp [h3])]
    split
    · rename_i e; cases e
    · rename_i e; cases e; exact absurd rfl h1
    · rename_i e; cases e; exact absurd rfl h2
    · rename_i e
      cases e
      rw [if_pos hc, digitsVal_eq _ _ h]

/-- `std::stoi` reads the number that the digits write. -/
theorem stoi_digits {i : Nat} (hi : (i : Int) ≤ 2147483647) : stoi (Nat.toDigits 10 i) = .ok (i : Int) := by
  unfold stoi
  rw [strtol_digits Nat.toDigits_ne_nil fun c hc => Nat.isDigit_of_mem_toDigits (by norm_num) (by norm_num) hc,
    Nat.ofDigitChars_ten_toDigits]
  dsimp only
  rw [if_pos ⟨by omega, hi⟩]

theorem find_app {c : Char} {s t : Str} (h : c ∉ s) : (s ++ c :: t).findIdx? (· == c) = some s.length := by
  rw [List.findIdx?_append]
  have : s.findIdx? (· == c) = none := by
    rw [List.findIdx?_eq_none_iff]
    intro x hx
    simp only [beq_eq_false_iff_ne, ne_eq]
    rintro rfl
    exact h hx
  rw [this]
  simp [List.findIdx?_cons]

theorem digit_ne {i : Nat} {c : Char} (h : c.isDigit = false) : c ∉ Nat.toDigits 10 i := by
  intro hc
  have := Nat.isDigit_of_mem_toDigits (by norm_num) (by norm_num) hc
  rw [this] at h
  cases h

/-- What a target with an index does. -/
theorem component_run {p : Params} {path : List Str} {name : Str} {i : Nat} {v : ℝ} {a : List ℝ}
    (hn : ':' ∉ name ∧ '(' ∉ name ∧ ')' ∉ name) (hp : ∀ n ∈ path, ':' ∉ n)
    (hs : ∀ q, q ≠ [] → q <+: path → p.isSub q = true) (ha : p.val (path ++ [name]) = some (.arr a))
    (hi : (i : Int) ≤ 2147483647) :
    parseInline p (target path (component name i)) v =
      (wr a i v >>= fun b => pure (p.set (path ++ [name]) (.arr b))) := by
  have hl : Plain (component name i) := by
    refine ⟨by simp [component], ?_, Or.inr (by simp [component, List.getLast?_append, List.getLast?_cons])⟩
    simp only [component, List.mem_append, List.mem_cons, List.not_mem_nil, or_false, not_or]
    exact ⟨hn.1, by decide, digit_ne (by decide), by decide⟩
  rw [parseInline_target hl hp hs, setParameterValue]
  have e1 : (component name i).findIdx? (· == '(') = some name.length := find_app hn.2.1
  have e2 : (component name i).findIdx? (· == ')') = some (name.length + 1 + (Nat.toDigits 10 i).length) := by
    have : component name i = (name ++ '(' :: Nat.toDigits 10 i) ++ ')' :: [] := by simp [component]
    rw [this, find_app]
    · simp
      omega
    · simp only [List.mem_append, List.mem_cons, not_or]
      exact ⟨hn.2.2, by decide, digit_ne (by decide)⟩
  change (match (component name i).findIdx? (· == '('), (component name i).findIdx? (· == ')') with
    | some p1, some p2 => _
    | _, _ => _) = _
  rw [e1, e2]
  dsimp only
  have e3 : (component name i).take name.length = name := by simp [component]
  have e4 : ((component name i).drop (name.length + 1)).take
      (name.length + 1 + (Nat.toDigits 10 i).length - name.length - 1) = Nat.toDigits 10 i := by
    have : name.length + 1 + (Nat.toDigits 10 i).length - name.length - 1 = (Nat.toDigits 10 i).length := by omega
    rw [this]
    have : (component name i).drop (name.length + 1) = Nat.toDigits 10 i ++ [')'] := by
      have : component name i = (name ++ ['(']) ++ (Nat.toDigits 10 i ++ [')']) := by simp [component]
      rw [this, List.drop_left' (by simp)]
    rw [this, List.take_left]
  rw [e3, ha]
  dsimp only
  rw [if_pos (by omega), e4, stoi_digits hi, Res.ok_bind, if_neg (by omega)]
  simp

/-- **C95.**  A parameter with the target `[a]:[b]:…:name(i)` sets the component `i` of the array of this name, for
every index of the array, and changes no other component and no other entry. -/
theorem C95_component_partial {p : Params} {path : List Str} {name : Str} {i : Nat} {v : ℝ} {a : List ℝ}
    (hn : ':' ∉ name ∧ '(' ∉ name ∧ ')' ∉ name) (hp : ∀ n ∈ path, ':' ∉ n)
    (hs : ∀ q, q ≠ [] → q <+: path → p.isSub q = true) (ha : p.val (path ++ [name]) = some (.arr a))
    (hi : (i : Int) ≤ 2147483647) (hia : i < a.length) :
    ∃ q b, parseInline p (target path (component name i)) v = .ok q ∧ Assigned p q (path ++ [name]) (.arr b) ∧
      b.length = a.length ∧ b[i]? = some v ∧ ∀ j, j ≠ i → b[j]? = a[j]? := by
  refine ⟨_, a.set i v, ?_, assigned_set _ _ _, by simp, by simp [hia], fun j hj => ?_⟩
  · rw [component_run hn hp hs ha hi]
    simp [wr, hia]
  · rw [List.getElem?_set_ne (Ne.symm hj)]

/-- **C95.**  A target with a list that does not exist is reported as an error, wherever the list is on the way. -/
theorem C95_missing {p : Params} {path rest : List Str} {n leaf : Str} {v : ℝ} (hl : Plain leaf)
    (hp : ∀ x ∈ path ++ n :: rest, ':' ∉ x) (hs : ∀ q, q ≠ [] → q <+: path → p.isSub q = true)
    (hn : p.isSub (path ++ [n]) = false) :
    parseInline p (target (path ++ n :: rest) leaf) v = .err "sublist does not exist" := by
  have aux : ∀ (path pre : List Str), (∀ q, q ≠ [] → q <+: path → p.isSub (pre ++ q) = true) →
      p.isSub (pre ++ path ++ [n]) = false →
      getInnerList p pre ((path ++ n :: rest).map (fun n => '[' :: (n ++ [']'])) ++ [leaf]) =
        .err "sublist does not exist" := by
    intro path
    induction path with
    | nil =>
      intro pre _ h
      simp only [List.append_nil] at h
      simp only [List.nil_append, List.map_cons, List.cons_append]
      rw [getInnerList, if_pos ⟨rfl, by simp [List.getLast?_cons]⟩]
      simp [h, throwErr]
    | cons m path ih =>
      intro pre hq h
      simp only [List.cons_append, List.map_cons]
      rw [getInner_list (hq [m] (by simp) (by simp)), ih (pre ++ [m]) ?_ (by simpa using h)]
      intro q hq' hpq
      have := hq (m :: q) (by simp) (by simpa using hpq)
      simpa using this
  unfold parseInline
  rw [split_target _ leaf hp hl.ne hl.colon, aux path [] (by simpa using hs) (by simpa using hn)]
  rfl

/-- **C95, what is false.**  The index of a component is not checked: every index from the length of the array on is an
access outside of it. -/
theorem C95_index_false {p : Params} {path : List Str} {name : Str} {i : Nat} {v : ℝ} {a : List ℝ}
    (hn : ':' ∉ name ∧ '(' ∉ name ∧ ')' ∉ name) (hp : ∀ n ∈ path, ':' ∉ n)
    (hs : ∀ q, q ≠ [] → q <+: path → p.isSub q = true) (ha : p.val (path ++ [name]) = some (.arr a))
    (hi : (i : Int) ≤ 2147483647) (hia : a.length ≤ i) :
    parseInline p (target path (component name i)) v = .ub := by
  rw [component_run hn hp hs ha hi]
  simp [wr, Nat.not_lt.mpr hia]

/-- **C95, what is false.**  A name that is not in the list is not reported: the entry is created, and the entries that
the problem reads stay as they are. -/
theorem C95_unknown_false : ¬ ∀ (p : Params) (path : List Str) (leaf : Str) (v : ℝ), Plain leaf →
    p.val (path ++ [leaf]) = none → ∃ e, parseInline p (target path leaf) v = .err e := by
  intro h
  obtain ⟨e, he⟩ := h (toyParams 1) [] ['K'] 3 ⟨by simp, by simp, Or.inl (by simp)⟩ rfl
  cases he

/-- **C95, what is false.**  An entry of another type is replaced by a floating point number, also a list with all of
its entries, and nothing is reported. -/
theorem C95_type_false : ∃ (p q : Params), p.val [['n']] = some (.int 2) ∧ p.isSub [['L']] = true ∧
    p.val [['L'], ['t']] = some (.arr [0, 0]) ∧ (parseInline p ['n'] 3 >>= fun p => parseInline p ['L'] 3) = .ok q ∧
    q.val [['n']] = some (.num 3) ∧ q.isSub [['L']] = false ∧ q.val [['L'], ['t']] = none :=
  ⟨(toyParams 1).set [['n']] (.int 2), _, rfl, rfl, rfl, rfl, rfl, rfl, rfl⟩

/-- **C95, what is false.**  A target that ends with a list is not reported: the tokens that are left are read past
their end. -/
theorem C95_list_false : parseInline (toyParams 1) "[L]".toList 3 = .ub := rfl

/-- The hypotheses of `C95_component_partial` are met, with a list on the way and an index of the array. -/
example : ∃ q b, parseInline (toyParams 1) "[L]:t(1)".toList 3 = .ok q ∧
    Assigned (toyParams 1) q [['L'], ['t']] (.arr b) ∧ b.length = 2 ∧ b[1]? = some 3 ∧
    ∀ j, j ≠ 1 → b[j]? = ([0, 0] : List ℝ)[j]? := by
  have := C95_component_partial (p := toyParams 1) (path := [['L']]) (name := ['t']) (i := 1) (v := 3) (a := [0, 0])
    (by simp) (by simp) ?_ rfl (by norm_num) (by simp)
  · exact this
  · intro q hq hp
    have : q = [['L']] := by
      cases q with
      | nil => exact absurd rfl hq
      | cons x q =>
        obtain ⟨t, ht⟩ := hp
        simp only [List.cons_append, List.cons.injEq, List.append_eq_nil_iff] at ht
        rw [ht.1, ht.2.1]
    rw [this]
    rfl

/-- The hypotheses of `C95_scalar` are met, and so are those of `C95_missing`. -/
example : (∃ q, parseInline (toyParams 1) "[L]:new".toList 3 = .ok q ∧
    Assigned (toyParams 1) q [['L'], "new".toList] (.num 3)) ∧
    parseInline (toyParams 1) "[L]:[M]:new".toList 3 = .err "sublist does not exist" := by
  have hs : ∀ q, q ≠ [] → q <+: [['L']] → (toyParams 1).isSub q = true := by
    intro q hq hp
    have : q = [['L']] := by
      cases q with
      | nil => exact absurd rfl hq
      | cons x q =>
        obtain ⟨t, ht⟩ := hp
        simp only [List.cons_append, List.cons.injEq, List.append_eq_nil_iff] at ht
        rw [ht.1, ht.2.1]
    rw [this]
    rfl
  have hl : Plain "new".toList := ⟨by simp, by decide, Or.inl (by decide)⟩
  exact ⟨C95_scalar (path := [['L']]) (leaf := "new".toList) hl (by simp) hs (Or.inl (by decide)),
    C95_missing (path := [['L']]) (n := ['M']) (rest := []) (leaf := "new".toList) hl (by simp) hs rfl⟩

/-- An import of a parameter changes the definition of its operation only, and marks it. -/
theorem C95_import {S : Sim} {a b : App S} {o name : Str} {x : List ℝ} (h : importParameter o name x a = .ok () b) :
    ∃ op q, a.ops o = some op ∧ op.parms name = some q ∧
      (q.target = [] → b.defs = a.defs) ∧
      (q.target ≠ [] → ∃ D P v, x[0]? = some v ∧ a.defs op.defn = some D ∧ parseInline D.params q.target v = .ok P ∧
        b.defs op.defn = some ⟨P, true⟩ ∧ ∀ n, n ≠ op.defn → b.defs n = a.defs n) := by
  unfold importParameter at h
  rw [bind_run (get_run a)] at h
  cases ho : a.ops o with
  | none => rw [ho] at h; simp [throwErr] at h
  | some op =>
    rw [ho] at h
    simp only [bind_ok, lift_ok] at h
    obtain ⟨v, a1, ⟨hv, rfl⟩, h⟩ := h
    cases hq : op.parms name with
    | none => rw [hq] at h; simp [throwErr] at h
    | some q =>
      rw [hq] at h
      simp only [bind_ok, modify_ok] at h
      obtain ⟨_, a2, rfl, h⟩ := h
      refine ⟨op, q, rfl, hq, fun ht => ?_, fun ht => ?_⟩
      · rw [if_pos ht] at h
        simp only [pure_ok] at h
        obtain ⟨_, rfl⟩ := h
        rfl
      · rw [if_neg ht] at h
        cases hd : a.defs op.defn with
        | none => rw [hd] at h; simp at h
        | some D =>
          rw [hd] at h
          simp only [bind_ok, lift_ok, modify_ok] at h
          obtain ⟨P, a3, ⟨hP, rfl⟩, rfl⟩ := h
          refine ⟨D, P, v, ?_, rfl, hP, by simp [upd], fun n hn => by simp [upd, hn]⟩
          unfold rd at hv
          split at hv
          · rename_i e
            cases Res.ok.inj hv
            exact e
          · cases hv

end Plato.Mpmd
