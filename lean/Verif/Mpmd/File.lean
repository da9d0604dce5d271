import Verif.Mpmd.Rounds

/-!
# The file for inspection and exported fields (C97)
-/

namespace Plato.Mpmd
open Plato

variable {S : Sim}

/-- `getVectorComponent` gives every entry of a component, for a vector of whole nodes. -/
theorem component_ok {v : List ℝ} {c s k : Nat} (hs : 0 < s) (hc : c < s) (hv : v.length = s * k) :
    ∃ w, getVectorComponent v c s = .ok w ∧ w.length = k ∧ ∀ i, i < k → w[i]? = v[s * i + c]? := by
  unfold getVectorComponent
  rw [if_neg (by omega), hv, Nat.mul_div_cancel_left k hs]
  have key : ∀ l : List Nat, (∀ i ∈ l, i < k) → (l.mapM fun (i : Nat) =>
      if (s * i : Int) + (c : Int) < 0 then (.ub : Res ℝ) else rd v ((s * i : Int) + (c : Int)).toNat) =
      .ok (l.map fun i => (v[s * i + c]?).getD 0) := by
    intro l
    induction l with
    | nil => intro _; rfl
    | cons i l ih =>
      intro hl
      have hi : i < k := hl i (by simp)
      have hb : s * i + c < v.length := by
        rw [hv]
        calc s * i + c < s * i + s := by omega
          _ = s * (i + 1) := by ring
          _ ≤ s * k := Nat.mul_le_mul_left s hi
      have hn : ((s * i : Int) + (c : Int)).toNat = s * i + c := by
        have : (s * i : Int) + (c : Int) = ((s * i + c : Nat) : Int) := by push_cast; ring
        rw [this, Int.toNat_natCast]
      have hneg : ¬ ((s * i : Int) + (c : Int) < 0) := by
        have : (0 : Int) ≤ (s * i : Int) + (c : Int) := by positivity
        omega
      rw [List.mapM_cons, if_neg hneg, hn, ih fun j hj => hl j (by simp [hj])]
      have : rd v (s * i + c) = .ok v[s * i + c] := by
        unfold rd
        rw [List.getElem?_eq_getElem hb]
      rw [this]
      simp [List.getElem?_eq_getElem hb]
  refine ⟨_, key _ (by simp), by simp, fun i hi => ?_⟩
  have hb : s * i + c < v.length := by
    rw [hv]
    calc s * i + c < s * i + s := by omega
      _ = s * (i + 1) := by ring
      _ ≤ s * k := Nat.mul_le_mul_left s hi
  simp [hi, List.getElem?_eq_getElem hb]

/-- **C97.**  A gradient by the controls: the file gets the data of the last calculation, and an export of the field
(without a mesh map) the same, before and after the file is written. -/
theorem C97_gradient_partial {a : App S} {f c : Str} {g : List ℝ} (hf : f ≠ []) (ha : '@' ∉ f) (hT : f ≠ sTopology)
    (hn : a.gradZName f = some c) (hg : a.gradsZ c = some g) (hm : a.meshMap = none) :
    hostMirror f a = .ok g a ∧ ∃ b, exportData f .field g.length a = .ok (some g) b ∧ hostMirror f b = .ok g b := by
  have h1 : ∀ b : App S, b.gradZName = a.gradZName → b.gradsZ c = some g → hostMirror f b = .ok g b := by
    intro b e1 e2
    unfold hostMirror
    rw [bind_run (lift_run_ok (fieldName_plain ha hf) _)]
    dsimp only
    rw [bind_run (get_run _), e1, hn]
    dsimp only
    rw [e2]
    rfl
  refine ⟨h1 a rfl hg, { a with gradsZ := upd a.gradsZ c g }, ?_, h1 _ rfl (by simp [upd])⟩
  unfold exportData
  rw [bind_run (lift_run_ok (fieldName_plain ha hf) _)]
  dsimp only
  unfold exportField
  rw [bind_run (get_run _), if_neg hT, hn]
  dsimp only
  rw [hg, Option.getD_some, bind_run (modify_run _ _)]
  unfold unmapGrad
  rw [hm]
  dsimp only
  rw [bind_run (pure_run _ _), bind_run (lift_run_ok (a := g) (by simp [copyFrom]) _)]
  rfl

/-- **C97.**  A component of the solution: with one step and as many degrees of freedom as dimensions, the file gets what
an export gives, entry `dims * i` of the solution for the node `i`. -/
theorem C97_solution_partial {a : App S} {u : List ℝ} {k : Nat} (hn : a.gradZName sSolutionX = none)
    (hu : a.sol = [u]) (hd : a.ndofs = a.dims) (hpos : 0 < a.dims) (hl : u.length = a.dims * k) :
    ∃ w, hostMirror sSolutionX a = .ok w a ∧ exportData sSolutionX .field k a = .ok (some w) a ∧ w.length = k ∧
      ∀ i, i < k → w[i]? = u[a.dims * i]? := by
  obtain ⟨w, h1, h2, h3⟩ := component_ok (c := 0) hpos hpos hl
  have hf : fieldName sSolutionX = .ok (sSolutionX, 0) := fieldName_plain (by decide) (by decide)
  refine ⟨w, ?_, ?_, h2, fun i hi => by simpa using h3 i hi⟩
  · unfold hostMirror
    rw [bind_run (lift_run_ok hf _)]
    dsimp only
    rw [bind_run (get_run _), hn]
    dsimp only
    rw [if_neg (by decide), if_pos rfl, hu, bind_run (lift_run_ok (show rd [u] 0 = .ok u from rfl) _)]
    exact lift_run_ok h1 _
  · unfold exportData
    rw [bind_run (lift_run_ok hf _)]
    dsimp only
    unfold exportField
    rw [bind_run (get_run _), if_neg (by decide), hn]
    dsimp only
    rw [if_neg (by decide), if_pos rfl, hu, bind_run (lift_run_ok (show lastStep [u] = .ok u from rfl) _), hd,
      bind_run (lift_run_ok (show getVectorComponent u 0 a.dims = _ from h1) _),
      bind_run (lift_run_ok (a := w) (by simp [copyFrom, h2]) _)]
    rfl

/-- Names of fields that are not gradients. -/
def Reserved (f : Str) : Prop := f = sTopology ∨ f = sSolution ∨ f = sSolutionX ∨ f = sSolutionY ∨ f = sSolutionZ

/-- **C97, what is false.**  A gradient by the coordinates: for every state, the file gets no data for it; and from then
on every export of this gradient throws, also after it is computed again. -/
theorem C97_coordinates_false {a : App S} {f c : Str} (hf : f ≠ []) (ha : '@' ∉ f) (hr : ¬ Reserved f)
    (hz : a.gradZName f = none) (hx : a.gradXName f = some c) (h0 : a.gradsX [] = none) (h1 : a.gradsZ [] = none)
    (hd : 0 < a.dims) :
    ∃ b, hostMirror f a = .ok [] b ∧ b.gradZName f = some [] ∧ b.gradsZ = a.gradsZ ∧
      ∀ e : App S, e.gradZName f = some [] → e.gradsZ [] = none → ∀ n, 0 < n →
        ∃ e', exportData f .field n e = .err "deep_copy: extents of views don't match" e' := by
  have hff := fieldName_plain ha hf
  simp only [Reserved, not_or] at hr
  obtain ⟨r1, r2, r3, r4, r5⟩ := hr
  refine ⟨{ a with gradZName := upd a.gradZName f [], gradsX := upd a.gradsX [] [] }, ?_, by simp [upd], rfl, ?_⟩
  · unfold hostMirror
    rw [bind_run (lift_run_ok hff _)]
    dsimp only
    rw [bind_run (get_run _), hz]
    dsimp only
    rw [if_neg r2, if_neg r3, if_neg r4, if_neg r5, hx]
    dsimp only
    rw [bind_run (modify_run _ _), Option.getD_none, bind_run (get_run _)]
    dsimp only
    rw [h0, bind_run (modify_run _ _), Option.getD_none]
    refine lift_run_ok ?_ _
    unfold getVectorComponent
    rw [if_neg (by omega)]
    simp
  · intro e e1 e2 n hn
    refine ⟨{ e with gradsZ := upd e.gradsZ [] [] }, ?_⟩
    have hcopy : copyFrom n ([] : List ℝ) = throwErr "deep_copy: extents of views don't match" := by
      unfold copyFrom
      rw [if_neg (by simp; omega)]
    unfold exportData
    rw [bind_run (lift_run_ok hff _)]
    dsimp only
    unfold exportField
    rw [bind_run (get_run _), if_neg r1, e1]
    dsimp only
    rw [e2, Option.getD_none, bind_run (modify_run _ _)]
    have hu : unmapGrad e.meshMap [] ([] : List ℝ) { e with gradsZ := upd e.gradsZ [] [] } =
        .ok [] { e with gradsZ := upd e.gradsZ [] [] } := by
      unfold unmapGrad
      cases e.meshMap with
      | none => rfl
      | some m => rfl
    rw [bind_run hu, hcopy]
    rfl

/-- The hypotheses of `C97_coordinates_false` are met: after a call of the operation for the gradient and of
`OutputToHDF5`, an export throws, and before it returns the data. -/
theorem C97_coordinates_run : ∃ a b d : App toy,
    initApp [⟨['p'], some (.criterionX ['c'] 0), ['d'], [(sGradient, ['g'])], []⟩, kNode ['h'] ['d'] (.hdf5 [['g']])]
      (toyApp 2) = .ok () a ∧
    compute ['p'] a = .ok () b ∧ (∃ v b', exportData ['g'] .field 2 b = .ok (some v) b' ∧ v.length = 2) ∧
    exec [.compute ['h'], .compute ['p']] b = .ok () d ∧ d.file = [(['g'], [])] ∧
    ∃ d', exportData ['g'] .field 2 d = .err "deep_copy: extents of views don't match" d' :=
  ⟨_, _, _, rfl, rfl, ⟨_, _, rfl, rfl⟩, rfl, rfl, _, rfl⟩

/-- **C97, what is false.**  With more than one step the file gets the first step and an export gives the last; with other
numbers of degrees of freedom than dimensions the file mixes components. -/
theorem C97_steps_false : ∃ (a : App toy) (v w : List ℝ) (b d : App toy),
    a.sol = [[1, 2], [3, 4]] ∧ a.dims = 1 ∧ a.ndofs = 1 ∧
    hostMirror sSolutionX a = .ok v b ∧ exportData sSolutionX .field 2 a = .ok (some w) d ∧ v = [1, 2] ∧ w = [3, 4] :=
  ⟨{ toyApp 2 with sol := [[1, 2], [3, 4]] }, _, _, _, _, rfl, rfl, rfl, rfl, rfl, rfl, rfl⟩

/-- **C97, what is false.**  Two degrees of freedom for each node in one dimension (displacement and temperature): the
file gets displacement and temperature as "Solution X". -/
theorem C97_components_false : ∃ (a : App toy) (v w : List ℝ) (b d : App toy),
    a.sol = [[1, 2, 3, 4]] ∧ a.dims = 1 ∧ a.ndofs = 2 ∧
    hostMirror sSolutionX a = .ok v b ∧ exportData sSolutionX .field 2 a = .ok (some w) d ∧ v = [1, 2, 3, 4] ∧
      w = [1, 3] :=
  ⟨{ toyApp 2 with sol := [[1, 2, 3, 4]], ndofs := 2 }, _, _, _, _, rfl, rfl, rfl, rfl, rfl, rfl, rfl⟩

/-- A component that the problem does not have: the last node is read past the end. -/
theorem C97_bounds_false : exportData (S := toy) sSolutionY .field 2 { toyApp 2 with sol := [[1, 2]] } = .ub := rfl

/-- The hypotheses of `C97_gradient_partial` and `C97_solution_partial` are met after a call. -/
example : ∃ a b : App toy, initApp [⟨['p'], some (.criterion ['c'] 0), ['d'], [(sGradient, ['g'])], []⟩] (toyApp 2) =
      .ok () a ∧ compute ['p'] a = .ok () b ∧ b.gradZName ['g'] = some ['c'] ∧ (∃ g, b.gradsZ ['c'] = some g) ∧
    b.meshMap = none ∧ b.gradZName sSolutionX = none ∧ (∃ u, b.sol = [u] ∧ u.length = b.dims * 2) ∧ b.ndofs = b.dims :=
  ⟨_, _, rfl, rfl, rfl, ⟨_, rfl⟩, rfl, rfl, ⟨_, rfl, rfl⟩, rfl⟩

end Plato.Mpmd
