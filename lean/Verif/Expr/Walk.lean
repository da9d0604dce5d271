import Verif.Expr.Heap

/-!
# Walking the tree: deletion, validation and evaluation

The recursive member functions on nodes compute the corresponding functions of the represented tree.
-/

namespace Plato.Ee

variable {K : Type}

/-- `deleteNode` frees exactly the nodes of the tree. -/
theorem delete_refines {t : Tree K} : ∀ {m : Mem K} {p par fp} (n : Nat), TreeAt m.cell t p par fp →
    fp.Nodup → t.depth < n → ∃ m', deleteNode n m p = .ok m' ∧ m'.next = m.next ∧
      ∀ a, m'.cell a = if a ∈ fp then none else m.cell a := by
  induction t with
  | nil =>
    intro m p par fp n ht _ hn
    obtain ⟨rfl, rfl⟩ := ht
    obtain ⟨n, rfl⟩ : ∃ k, n = k + 1 := ⟨n - 1, by omega⟩
    exact ⟨m, rfl, rfl, by simp⟩
  | node it l r ihl ihr =>
    intro m p par fp n ht hnd hn
    obtain ⟨n, rfl⟩ : ∃ k, n = k + 1 := ⟨n - 1, by omega⟩
    obtain ⟨a, lp, rp, fl, fr, rfl, ha, hl, hr, rfl⟩ := ht
    simp only [Tree.depth] at hn
    have h1 := List.nodup_cons.mp hnd
    have h2 := List.nodup_append.mp h1.2
    have hal : a ∉ fl := fun hx => h1.1 (by simp [hx])
    have har : a ∉ fr := fun hx => h1.1 (by simp [hx])
    obtain ⟨m1, e1, n1, c1⟩ := ihl n hl h2.1 (by omega)
    have hr1 : TreeAt m1.cell r rp (some a) fr := hr.congr fun x hx => by
      rw [c1, if_neg fun hx' => h2.2.2 x hx' x hx rfl]
    obtain ⟨m2, e2, n2, c2⟩ := ihr n hr1 h2.2.1 (by omega)
    have ha2 : m2.cell a = some ⟨it, lp, rp, par⟩ := by
      rw [c2, if_neg har, c1, if_neg hal, ha]
    refine ⟨m2.upd a none, ?_, by simp [Mem.upd, n2, n1], ?_⟩
    · simp [deleteNode, Mem.ld_some ha, e1, e2, Mem.free, Mem.ld_some ha2]
    · intro x
      simp only [Mem.upd, List.mem_cons, List.mem_append]
      by_cases hx : x = a
      · simp [hx]
      · simp only [hx, if_false, false_or]
        rw [c2, c1]
        by_cases hxl : x ∈ fl <;> by_cases hxr : x ∈ fr <;> simp [hxl, hxr]

/-- Whether a pointer to the tree is null. -/
def Tree.isNil : Tree K → Bool
  | .nil => true
  | .node _ _ _ => false

/-- `validateNode` on a tree value. -/
def tvalidate : Tree K → Res NodeID
  | .nil => .ok .empty
  | .node it l r => do
    let vl ← tvalidate l
    if vl ≠ .empty then pure vl else
    let vr ← tvalidate r
    if vr ≠ .empty then pure vr else
    match it.id with
    | .addition | .subtraction | .multiplication | .division | .power =>
      if l.isNil then throwErr "No left side value"
      else if r.isNil then throwErr "No right side value"
      else pure .empty
    | .positive | .negative | .exponential | .log | .sqrt | .abs | .sin | .cos | .tan =>
      if r.isNil then throwErr "No value"
      else if l.isNil = false then throwErr "Found a left side value"
      else pure .empty
    | .factorial =>
      if l.isNil then throwErr "No value"
      else if r.isNil = false then throwErr "Found a right side value"
      else pure .empty
    | .openP | .closeP | .openBar | .closeBar => throwErr "bracket"
    | _ => pure .empty

/-- `evaluateNode` on a tree value. -/
def teval (ops : Ops K) (params : List Char → Option K) : Tree K → Res K
  | .nil => .ok ops.zero
  | .node it l r => do
    let left ← teval ops params l
    let right ← teval ops params r
    if it.id = .division ∧ ops.isZero right = true then pure ops.zero
    else match it.id with
    | .positive => pure (ops.pos right)
    | .negative => pure (ops.neg right)
    | .addition => pure (ops.add left right)
    | .subtraction => pure (ops.sub left right)
    | .multiplication => pure (ops.mul left right)
    | .division => pure (ops.div left right)
    | .exponential => pure (ops.exp right)
    | .log => pure (ops.log right)
    | .power => pure (ops.pow left right)
    | .sqrt => pure (ops.sqrt right)
    | .factorial => pure (ops.fact left)
    | .abs => pure (ops.abs right)
    | .sin => pure (ops.sin right)
    | .cos => pure (ops.cos right)
    | .tan => pure (ops.tan right)
    | .number => match it.number with
      | some v => pure v
      | none => Res.ub
    | .var => getParam params it.name
    | _ => pure ops.zero

theorem TreeAt.isNil {h : Nat → Option (Cell K)} {t : Tree K} {p par fp}
    (ht : TreeAt h t p par fp) : t.isNil = decide (p = none) := by
  cases t with
  | nil => simp [Tree.isNil, ht.1]
  | node it l r => obtain ⟨_, _, _, _, _, rfl, _⟩ := ht; simp [Tree.isNil]

theorem validate_refines {m : Mem K} : ∀ {t : Tree K} {p par fp} (n : Nat),
    TreeAt m.cell t p par fp → t.depth < n → validateNode m n p = tvalidate t
  | .nil, p, par, fp, n, ht, hn => by
    obtain ⟨n, rfl⟩ : ∃ k, n = k + 1 := ⟨n - 1, by omega⟩
    obtain ⟨rfl, rfl⟩ := ht
    rfl
  | .node it l r, p, par, fp, n, ht, hn => by
    obtain ⟨n, rfl⟩ : ∃ k, n = k + 1 := ⟨n - 1, by omega⟩
    obtain ⟨a, lp, rp, fl, fr, rfl, ha, hl, hr, rfl⟩ := ht
    simp only [Tree.depth] at hn
    have e1 := validate_refines n hl (by omega)
    have e2 := validate_refines n hr (by omega)
    simp only [validateNode, tvalidate, Mem.ld_some ha, Res.ok_bind, e1, e2, hl.isNil, hr.isNil]
    obtain ⟨id, pr, nu, na⟩ := it
    cases id <;> simp

theorem eval_refines {ops : Ops K} {params : List Char → Option K} {m : Mem K} :
    ∀ {t : Tree K} {p par fp} (n : Nat), TreeAt m.cell t p par fp → t.depth < n →
      evaluateNode ops params m n p = teval ops params t
  | .nil, p, par, fp, n, ht, hn => by
    obtain ⟨n, rfl⟩ : ∃ k, n = k + 1 := ⟨n - 1, by omega⟩
    obtain ⟨rfl, rfl⟩ := ht
    rfl
  | .node it l r, p, par, fp, n, ht, hn => by
    obtain ⟨n, rfl⟩ : ∃ k, n = k + 1 := ⟨n - 1, by omega⟩
    obtain ⟨a, lp, rp, fl, fr, rfl, ha, hl, hr, rfl⟩ := ht
    simp only [Tree.depth] at hn
    have e1 := eval_refines (ops := ops) (params := params) n hl (by omega)
    have e2 := eval_refines (ops := ops) (params := params) n hr (by omega)
    simp only [evaluateNode, teval, Mem.ld_some ha, Res.ok_bind, e1, e2]
    obtain ⟨id, pr, nu, na⟩ := it
    cases id <;> rfl

/-- The evaluator object is in a consistent state: its nodes are exactly those of the tree `t` held
in `mTree` (nothing dangling, nothing leaked). -/
structure Evaluator.Holds (ev : Evaluator K) (t : Tree K) : Prop where
  bound : ∀ a, ev.mem.cell a ≠ none → a < ev.mem.next
  rep : ∃ fp, TreeAt ev.mem.cell t ev.tree none fp ∧ fp.Nodup ∧
    ∀ a, ev.mem.cell a ≠ none ↔ a ∈ fp

theorem Evaluator.Holds.depth_lt {ev : Evaluator K} {t : Tree K} (h : ev.Holds t) :
    t.depth < ev.mem.next + 1 := by
  obtain ⟨hb, fp, ht, hn, hlive⟩ := h
  have h1 := ht.depth_le
  have h2 := nodup_bound hn fun a ha => hb a ((hlive a).mpr ha)
  omega

theorem Evaluator.Holds.validate {ev : Evaluator K} {t : Tree K} (h : ev.Holds t) :
    ev.validate = (do let r ← tvalidate t; pure (decide (r ≠ .empty))) := by
  have hd := h.depth_lt
  obtain ⟨hb, fp, ht, hn, hlive⟩ := h
  simp only [Evaluator.validate, validate_refines _ ht hd]

theorem Evaluator.Holds.evaluate {ev : Evaluator K} {t : Tree K} (h : ev.Holds t) (ops : Ops K)
    (params : List Char → Option K) : ev.evaluate ops params = teval ops params t := by
  have hd := h.depth_lt
  obtain ⟨hb, fp, ht, hn, hlive⟩ := h
  simp only [Evaluator.evaluate, eval_refines _ ht hd]

/-- Deleting leaves no live node and an empty tree. -/
theorem Evaluator.Holds.delete {ev : Evaluator K} {t : Tree K} (h : ev.Holds t) :
    ∃ ev', ev.delete = .ok ev' ∧ ev'.Holds .nil ∧ ev'.tree = none := by
  have hd := h.depth_lt
  obtain ⟨hb, fp, ht, hn, hlive⟩ := h
  obtain ⟨m', e, hnx, hc⟩ := delete_refines _ ht hn hd
  refine ⟨⟨m', none⟩, by simp [Evaluator.delete, e], ⟨?_, [], ⟨rfl, rfl⟩, List.nodup_nil, ?_⟩, rfl⟩
  · intro a ha
    simp only [hc] at ha
    simp only [hnx]
    by_cases hm : a ∈ fp
    · simp [hm] at ha
    · simp only [hm, if_false] at ha; exact hb a ha
  · intro a
    simp only [hc, List.not_mem_nil, iff_false, not_not]
    by_cases hm : a ∈ fp
    · simp [hm]
    · simp only [hm, if_false]
      by_contra hne
      exact hm ((hlive a).mp hne)

theorem Evaluator.new_holds : (Evaluator.new : Evaluator K).Holds .nil :=
  ⟨fun _ h => absurd rfl h, [], ⟨rfl, rfl⟩, List.nodup_nil, by simp [Evaluator.new]⟩

end Plato.Ee
