import Verif.Mpmd.Stale
import Verif.Mpmd.MapProps

/-!
# Examples for problem definitions, and what is false of them (C94)
-/

namespace Plato.Mpmd
open Plato

/-- What the small problem computes. -/
noncomputable def toyPhysics : Physics toy where
  inv m _ P p := p.1 = m.nverts ∧ toyK P = .ok p.2
  U _ _ P z := [z.map ((match toyK P with | .ok k => k | _ => 0) * ·)]
  V _ _ _ _ s _ := ((s.headD []).map fun u => u * u / 2).sum
  G _ _ P _ s _ := (s.headD []).map ((match toyK P with | .ok k => k | _ => 0) * ·)
  GX _ _ _ _ s _ := s.headD []
  lin _ _ _ _ := false
  make_inv := by
    intro m d P p h
    change (toyK P >>= fun k => pure (m.nverts, k)) = .ok p at h
    cases hk : toyK P with
    | ok k =>
      rw [hk] at h
      cases Res.ok.inj h
      exact ⟨rfl, rfl⟩
    | err e => rw [hk] at h; cases h
    | ub => rw [hk] at h; cases h
  solution_ok := by
    intro m d P p z s p' hi h
    cases Res.ok.inj h
    refine ⟨?_, hi⟩
    rw [hi.2]
  value_ok := by
    intro m d P p z s c v p' hi h
    cases Res.ok.inj h
    exact ⟨rfl, hi⟩
  gradZ_ok := by
    intro m d P p z s c v p' hi h
    cases Res.ok.inj h
    refine ⟨?_, hi⟩
    rw [hi.2]
  gradX_ok := by
    intro m d P p z s c v p' hi h
    cases Res.ok.inj h
    exact ⟨rfl, hi⟩
  lin_ok := fun _ _ _ _ _ _ => rfl
  V_lin := by intros; simp at *
  G_lin := by intros; simp at *
  GX_lin := by intros; simp at *

/-- An operation of a kind for a definition, with the parameter `r` for the entry `k`. -/
def kNode (o d : Str) (k : Kind) : Node := ⟨o, some k, d, [], [(['r'], ['k'], 0)]⟩

/-- The hypotheses of `C94_value_partial` are met with two definitions, an import of a parameter of each, imports of the
topology, and calls of operations of both. -/
example : ∃ a b d : App toy, ∃ nodes : List Node, ∃ hist : List (Cmd toy),
    nodes = [kNode ['p'] ['d'] (.value ['c'] 1), kNode ['q'] ['e', 'e'] (.criterion ['c'] 1)] ∧
    hist = [.importParameter ['p'] ['r'] [3], .importField sTopology [1, 2], .compute ['p'],
      .importParameter ['q'] ['r'] [5], .compute ['q']] ∧
    (∀ P d, toy.dims P = .ok d → d = 3 ∨ d = 2 ∨ d = 1) ∧
    (∀ P, toy.load (toyApp 2).files (toyApp 2).current = .ok P → Holds toyPhysics (toyApp 2) (toyApp 2).files P) ∧
    (∀ n, (toyApp 2).defs n = none) ∧ initApp nodes (toyApp 2) = .ok () a ∧
    nodes.Pairwise (fun x y => x.name ≠ y.name) ∧ (∀ cmd ∈ hist, cmd.plain a.ops) ∧ exec hist a = .ok () b ∧
    compute ['p'] b = .ok () d := by
  refine ⟨_, _, _, _, _, rfl, rfl, ?_, ?_, fun _ => rfl, rfl, by simp [kNode], ?_, rfl, rfl⟩
  · intro P d h
    exact Or.inr (Or.inr (Res.ok.inj h).symm)
  · intro P h
    cases Res.ok.inj h
    exact ⟨(2, 1), ⟨2, 2⟩, 1, rfl, ⟨rfl, rfl⟩, rfl, congrArg Res.ok Nat.cast_one⟩
  · intro cmd hc
    simp only [List.mem_cons, List.not_mem_nil, or_false] at hc
    rcases hc with rfl | rfl | rfl | rfl | rfl
    · trivial
    · trivial
    · intro op ho
      cases Option.some.inj ho
      trivial
    · trivial
    · intro op ho
      cases Option.some.inj ho
      trivial

/-- The hypotheses of `C94_gradient_partial` are met by a solution, an import of a parameter of another definition, an
export and another solution between. -/
example : ∃ a b e g : App toy, ∃ hist : List (Cmd toy),
    hist = [.importParameter ['q'] ['r'] [5], .export sSolution .field 2, .compute ['p']] ∧
    initApp [kNode ['p'] ['d'] .solution, kNode ['q'] ['e', 'e'] (.criterion ['c'] 1), kNode ['g'] ['d'] (.gradient ['c'])]
      (toyApp 2) = .ok () a ∧ compute ['p'] a = .ok () b ∧ (∀ cmd ∈ hist, cmd.quiet b.ops ['d']) ∧
    exec hist b = .ok () e ∧ compute ['g'] e = .ok () g := by
  refine ⟨_, _, _, _, _, rfl, rfl, rfl, ?_, rfl, rfl⟩
  intro cmd hc
  simp only [List.mem_cons, List.not_mem_nil, or_false] at hc
  rcases hc with rfl | rfl | rfl
  · intro op ho
    cases Option.some.inj ho
    exact Or.inl (by simp [kNode])
  · trivial
  · intro op ho
    cases Option.some.inj ho
    exact ⟨trivial, rfl⟩

/-- The numbers of a run: value of the criterion with `k` for two nodes of one. -/
theorem toy_value (k : ℝ) : ((([1, 1] : List ℝ).map (k * ·)).map fun u => u * u / 2).sum = k * k := by
  simp

/-- **C94, what is false.**  With `ReloadMesh` among the operations: the problem is created from the parameters of the
constructor, and the imported parameter is lost.  The value should be 9, and is 1. -/
theorem C94_reload_false : ∃ a b d : App toy,
    initApp [kNode ['p'] ['d'] (.value ['c'] 0), kNode ['m'] ['d'] .reloadMesh] (toyApp 2) = .ok () a ∧
    exec [.importParameter ['p'] ['r'] [3], .compute ['p']] a = .ok () b ∧ b.values ['c'] = some 9 ∧
    exec [.compute ['m'], .compute ['p']] b = .ok () d ∧ d.values ['c'] = some 1 := by
  refine ⟨_, _, _, rfl, rfl, ?_, rfl, ?_⟩
  · change some (((([1, 1] : List ℝ).map ((3 : ℝ) * ·)).map fun u => u * u / 2).sum - 0) = some 9
    rw [toy_value]
    norm_num
  · change some (((([1, 1] : List ℝ).map ((1 : ℝ) * ·)).map fun u => u * u / 2).sum - 0) = some 1
    rw [toy_value]
    norm_num

/-- The small problem, with definitions that can't be created: those with the name `x`. -/
noncomputable def toyX : Sim := { toy with
  load := fun _ name => .ok (if name = ['x'] then ⟨fun _ => none, fun _ => false⟩ else toyParams name.length) }

/-- Members before `initialize`. -/
noncomputable def toyXApp (n : Nat) : App toyX where
  files := n
  mesh := ⟨n, n⟩
  dims := 1
  ndofs := 1
  current := ['d']
  default := (['d'], toyParams 1)
  defs _ := none
  prob := some (n, 1)
  sol := [List.replicate n 0]
  control := []
  values _ := none
  gradsZ _ := none
  gradsX _ := none
  valueName _ := none
  gradZName _ := none
  gradXName _ := none
  vals _ := none
  ops _ := none
  meshMap := none
  file := []

/-- **C94, what is false.**  After an exception in the creation of a problem the application has the name of the
definition and no problem: the same call again is undefined behaviour instead of the same exception. -/
theorem C94_failed_false : ∃ a b : App toyX,
    initApp [kNode ['p'] ['d'] (.value ['c'] 0), kNode ['q'] ['x'] (.value ['c'] 0)] (toyXApp 2) = .ok () a ∧
    compute ['q'] a = .err "InvalidParameter" b ∧ compute ['q'] b = .ub :=
  ⟨_, _, rfl, rfl, rfl⟩

/-- The same, and the dimension of the definition `x` is 4. -/
noncomputable def toy4 : Sim := { toyX with
  dims := fun p => .ok (match p.val [['k']] with | some _ => 1 | none => 4) }

/-- Members before `initialize`. -/
noncomputable def toy4App (n : Nat) : App toy4 where
  files := n
  mesh := ⟨n, n⟩
  dims := 1
  ndofs := 1
  current := ['d']
  default := (['d'], toyParams 1)
  defs _ := none
  prob := some (n, 1)
  sol := [List.replicate n 0]
  control := []
  values _ := none
  gradsZ _ := none
  gradsX _ := none
  valueName _ := none
  gradZName _ := none
  gradXName _ := none
  vals _ := none
  ops _ := none
  meshMap := none
  file := []

/-- **C94, what is false.**  For a definition with a dimension other than 1, 2, 3 no problem is created, and nothing is
thrown: the operation computes with the problem of the definition used before. -/
theorem C94_dimension_false : ∃ a b d : App toy4,
    initApp [kNode ['p'] ['d'] (.value ['c'] 0), kNode ['q'] ['x'] (.value ['c'] 0)] (toy4App 2) = .ok () a ∧
    (∀ P, toy4.load (toy4App 2).files ['x'] = .ok P → toy4.dims P = .ok 4 ∧ ∀ m n, toy4.make m n P = .err "InvalidParameter") ∧
    compute ['p'] a = .ok () b ∧ compute ['q'] b = .ok () d ∧ d.current = ['x'] ∧ d.values ['c'] = b.values ['c'] := by
  refine ⟨_, _, _, rfl, ?_, rfl, rfl, rfl, rfl⟩
  intro P h
  cases Res.ok.inj h
  exact ⟨rfl, fun _ _ => rfl⟩

/-- The gradient with `k` and a solution for `j`. -/
theorem toy_gradient (k j : ℝ) : (([1, 1] : List ℝ).map (j * ·)).map (k * ·) = [k * j, k * j] := by
  simp

/-- **C94, what is false.**  A parameter imported between: the problem is created again, the solution is not.  The
gradient should be 9 for each node, and is 3. -/
theorem C94_stale_false : ∃ a b d : App toy, ∃ P : Params,
    initApp [kNode ['p'] ['d'] .solution, kNode ['g'] ['d'] (.gradient ['c'])] (toyApp 2) = .ok () a ∧
    exec [.compute ['p'], .importParameter ['g'] ['r'] [3]] a = .ok () b ∧ compute ['g'] b = .ok () d ∧
    d.defs ['d'] = some ⟨P, false⟩ ∧ d.gradsZ ['c'] = some [3, 3] ∧
    toyPhysics.G d.mesh d.dims P d.control (toyPhysics.U d.mesh d.dims P d.control) ['c'] = [9, 9] := by
  refine ⟨_, _, _, _, rfl, rfl, rfl, rfl, ?_, ?_⟩
  · change some ((([1, 1] : List ℝ).map ((1 : ℝ) * ·)).map ((3 : ℝ) * ·)) = some [3, 3]
    rw [toy_gradient]
    norm_num
  · change ((([1, 1] : List ℝ).map ((3 : ℝ) * ·)).map ((3 : ℝ) * ·)) = [9, 9]
    rw [toy_gradient]
    norm_num

/-- **C94, what is false.**  An operation of another definition between: the solution is reset to zero.  The gradient
should be 1 for each node, and is 0. -/
theorem C94_switch_false : ∃ a b d : App toy, ∃ P : Params,
    initApp [kNode ['p'] ['d'] .solution, kNode ['q'] ['e', 'e'] .output, kNode ['g'] ['d'] (.gradient ['c'])]
      (toyApp 2) = .ok () a ∧
    exec [.compute ['p'], .compute ['q']] a = .ok () b ∧ compute ['g'] b = .ok () d ∧
    d.defs ['d'] = some ⟨P, false⟩ ∧ d.gradsZ ['c'] = some [0, 0] ∧
    toyPhysics.G d.mesh d.dims P d.control (toyPhysics.U d.mesh d.dims P d.control) ['c'] = [1, 1] := by
  refine ⟨_, _, _, _, rfl, rfl, rfl, rfl, ?_, ?_⟩
  · change some (([0, 0] : List ℝ).map (((1 : ℕ) : ℝ) * ·)) = some [0, 0]
    simp
  · change ((([1, 1] : List ℝ).map (((1 : ℕ) : ℝ) * ·)).map (((1 : ℕ) : ℝ) * ·)) = [1, 1]
    rw [toy_gradient]
    norm_num

/-- **C94, what is false.**  `Reinitialize` between: the solution is reset to zero. -/
theorem C94_reinitialize_false : ∃ a b d : App toy, ∃ P : Params,
    initApp [kNode ['p'] ['d'] .solution, kNode ['q'] ['d'] (.reinitialize false), kNode ['g'] ['d'] (.gradient ['c'])]
      (toyApp 2) = .ok () a ∧
    exec [.compute ['p'], .compute ['q']] a = .ok () b ∧ compute ['g'] b = .ok () d ∧
    d.defs ['d'] = some ⟨P, false⟩ ∧ d.gradsZ ['c'] = some [0, 0] ∧
    toyPhysics.G d.mesh d.dims P d.control (toyPhysics.U d.mesh d.dims P d.control) ['c'] = [1, 1] := by
  refine ⟨_, _, _, _, rfl, rfl, rfl, rfl, ?_, ?_⟩
  · change some (([0, 0] : List ℝ).map (((1 : ℕ) : ℝ) * ·)) = some [0, 0]
    simp
  · change ((([1, 1] : List ℝ).map (((1 : ℕ) : ℝ) * ·)).map (((1 : ℕ) : ℝ) * ·)) = [1, 1]
    rw [toy_gradient]
    norm_num

end Plato.Mpmd
