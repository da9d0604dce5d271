import Verif.Mpmd.Values

/-!
# A small problem for examples and counterexamples, and what is false of exported values (C92)

One degree of freedom for each node, `u = k z` with the parameter `k`, criterion `½ Σ uᵢ²`.
-/

namespace Plato.Mpmd
open Plato

/-- Entry `k` of the parameters. -/
def toyK (p : Params) : Res ℝ :=
  match p.val [['k']] with
  | some (.num k) => .ok k
  | _ => throwErr "InvalidParameter"

/-- Parameters with the entry `k` and the list `L`. -/
def toyParams (k : ℝ) : Params where
  val p := if p = [['k']] then some (.num k) else if p = [['L'], ['t']] then some (.arr [0, 0]) else none
  isSub p := if p = [['L']] then true else false

/-- The problem with nodes and `k`. -/
noncomputable def toy : Sim where
  Files := Nat
  Prob := Nat × ℝ
  load _ name := .ok (toyParams name.length)
  readMesh f _ := .ok ⟨f, f⟩
  dims _ := .ok 1
  make m _ p := do
    let k ← toyK p
    pure (m.nverts, k)
  globalSolution p := [List.replicate p.1 0]
  numDofs _ := 1
  isLinear _ _ := false
  solution p z := .ok ([z.map (p.2 * ·)], p)
  value p _ s _ := .ok (((s.headD []).map fun u => u * u / 2).sum, p)
  gradZ p _ s _ := .ok ((s.headD []).map (p.2 * ·), p)
  gradX p _ s _ := .ok (s.headD [], p)
  update p _ _ := .ok p

/-- Members before `initialize`, with the problem definition `d` of one mesh with `n` nodes. -/
noncomputable def toyApp (n : Nat) : App toy where
  files := n
  mesh := ⟨n, n⟩
  dims := 1
  ndofs := 1
  current := ['d']
  default := (['d'], toyParams 1)
  defs _ := none
  prob := some (n, 1)
  sol := [List.replicate n 0]
  control := []
  values _ := none
  gradsZ _ := none
  gradsX _ := none
  valueName _ := none
  gradZName _ := none
  gradXName _ := none
  vals _ := none
  ops _ := none
  meshMap := none
  file := []

/-- An operation that computes a value of the criterion `c`. -/
def valueNode (o d n : Str) (t : ℝ) : Node := ⟨o, some (.value ['c'] t), d, [(sValue, n)], []⟩

/-- **C92, what is false.**  Two operations for the same criterion and the same problem definition, with different
targets and different names of the value: after calls of both, the value exported under the name of the first has the
target of the second. -/
theorem C92_target_false : ¬ ∀ (a0 a b d : App toy) (nodes : List Node) (nd nd' : Node) (k : Kind) (c n : Str) (t : ℝ)
    (len : Nat), (∀ o, a0.ops o = none) → initApp nodes a0 = .ok () a → nodes.Pairwise (fun x y => x.name ≠ y.name) →
    nd ∈ nodes → nd' ∈ nodes → nd'.name ≠ nd.name → nd'.defn = nd.defn → nd.kind = some k → k.valueOf = some (c, t) →
    getArgumentName sValue nd.outputs = .ok n → n ≠ [] → '@' ∉ n → compute nd.name a = .ok () b →
    compute nd'.name b = .ok () d →
    ∃ p v p', toy.value p b.control b.sol c = .ok (v, p') ∧ Behind b c p' ∧
      exportData n .scalar len d = .ok (some [v - t]) d := by
  intro h
  obtain ⟨p, v, p', h1, -, h2⟩ := h (toyApp 2) _ _ _ [valueNode ['p'] ['d'] ['n'] 1, valueNode ['q'] ['d'] ['m'] 2]
    (valueNode ['p'] ['d'] ['n'] 1) (valueNode ['q'] ['d'] ['m'] 2) _ ['c'] ['n'] 1 1 (fun _ => rfl) rfl
    (by simp [valueNode]) (by simp) (by simp) (by simp [valueNode]) rfl rfl rfl rfl (by simp) (by simp) rfl rfl
  have e1 := congrArg Prod.fst (Res.ok.inj h1)
  have e2 := (Out.ok.inj h2).1
  clear h h1 h2
  norm_num [toyApp, upd] at e1 e2
  linarith

/-- **C92, what is false.**  Values are stored by the name of the criterion: with the same criterion in two problem
definitions, the value exported for the first definition is that of the second after a call of both. -/
theorem C92_definition_false : ¬ ∀ (a0 a b d : App toy) (nodes : List Node) (nd nd' : Node) (k : Kind) (c n : Str)
    (t : ℝ) (len : Nat), (∀ o, a0.ops o = none) → initApp nodes a0 = .ok () a →
    nodes.Pairwise (fun x y => x.name ≠ y.name) → nd ∈ nodes → nd' ∈ nodes → nd'.name ≠ nd.name → nd'.defn ≠ nd.defn →
    nd'.kind = nd.kind → nd.kind = some k → k.valueOf = some (c, t) → getArgumentName sValue nd.outputs = .ok n →
    n ≠ [] → '@' ∉ n → compute nd.name a = .ok () b → compute nd'.name b = .ok () d →
    ∃ p v p', toy.value p b.control b.sol c = .ok (v, p') ∧ Behind b c p' ∧
      exportData n .scalar len d = .ok (some [v - t]) d := by
  intro h
  obtain ⟨p, v, p', h1, -, h2⟩ := h (toyApp 2) _ _ _ [valueNode ['p'] ['d'] ['n'] 1, valueNode ['q'] ['e', 'e'] ['m'] 1]
    (valueNode ['p'] ['d'] ['n'] 1) (valueNode ['q'] ['e', 'e'] ['m'] 1) _ ['c'] ['n'] 1 1 (fun _ => rfl) rfl
    (by simp [valueNode]) (by simp) (by simp) (by simp [valueNode]) (by simp [valueNode]) rfl rfl rfl rfl (by simp)
    (by simp) rfl rfl
  have e1 := congrArg Prod.fst (Res.ok.inj h1)
  have e2 : some [((([1, 1] : List ℝ).map fun x => ((2 : ℕ) : ℝ) * x).map fun u => u * u / 2).sum - 1] = some [v - 1] :=
    (Out.ok.inj h2).1
  clear h h1 h2
  norm_num [toyApp] at e1 e2
  linarith

/-- **C92, what is false.**  The name of the value is registered as it is given, and cut at `@` for an export: a value
with the name `n@1` can't be exported. -/
theorem C92_name_false : ∃ a b : App toy, initApp [valueNode ['p'] ['d'] ['n', '@', '1'] 1] (toyApp 2) = .ok () a ∧
    compute ['p'] a = .ok () b ∧ b.valueName ['n', '@', '1'] = some ['c'] ∧
    exportData ['n', '@', '1'] .scalar 1 b = .err "Attempted to export SharedValue that doesn't exist." b :=
  ⟨_, _, rfl, rfl, rfl, rfl⟩

/-- The hypotheses of `C92_history_partial` are met by an input with two criteria, and a history with an import, calls
of both operations and a call that throws. -/
example : ∃ a b d : App toy,
    initApp [valueNode ['p'] ['d'] ['n'] 1, ⟨['q'], some (.criterion ['e'] 0), ['e', 'e'], [(sGradient, ['g'])], []⟩]
      (toyApp 2) = .ok () a ∧
    execAll [.importField sTopology [1, 3]] a = some d ∧
    compute ['p'] d = .ok () b ∧
    execAll [.compute ['q'], .compute ['x'], .export ['g'] .field 2] b ≠ none :=
  ⟨_, _, _, rfl, rfl, rfl, by intro h; cases h⟩

end Plato.Mpmd
