import Mathlib.LinearAlgebra.Matrix.Determinant.Basic
import Mathlib.Tactic.NormNum
import Mathlib.Tactic.FieldSimp
import Verif.Vms.Gradient

/-!
# The stabilised problem: gradients that are not total derivatives (C101)
-/

namespace Plato.Vms

open Matrix Finset Filter Topology

/-- The state of step one, as a criterion. -/
def atOne : Criterion ℝ Unit Unit := ⟨fun _ _ k _ => if k = 1 then 1 else 0, fun _ _ => 0⟩

/-- The gradient of a problem with two steps and no prescribed values. -/
theorem grad_two {ι ν π ζ : Type} [Fintype ι] [DecidableEq ι] [Fintype ν] [Fintype π]
    {P : Problem ℝ ι ν π ζ} {F : Criterion ℝ ι ζ} {z : ζ → ℝ} {h : Nat → ι → ℝ}
    {s : St ℝ ι ν π} {n : ν → ℝ} {pg : π → ℝ} {jac : Matrix π π ℝ} {D : Matrix π ι ℝ}
    {J : Matrix ι ι ℝ} {L : ι → ℝ} (hN : P.numSteps = 2) (hc : P.con = fun _ => none)
    (hs : P.solve.Exact) (hn : (fun v => h 1 (P.pick v)) = n) (hjac : P.proj.gradU 0 n z = jac)
    (hpg : rowSummed jac (-P.proj.value 0 n z) = pg)
    (hD : rowScaled jac (P.pde.gradNT (h 1) pg z) = D)
    (hJ : P.pde.gradUT (h 1) pg z - spread P.pick (P.proj.gradNT pg n z * D) = J)
    (hdet : J.det ≠ 0) (hL : J *ᵥ L = -F.gradU h z 1) :
    (P.criterionGradient F z h s).2 = F.gradZ h z + P.pde.gradZ (h 1) pg z *ᵥ L +
      P.proj.gradZ pg (fun v => h 1 (P.raw v)) z *ᵥ rowSummed jac (D *ᵥ L) := by
  have hu : IsUnit J.det := isUnit_iff_ne_zero.2 hdet
  have e : P.solve J (s.lambda 1) (-F.gradU h z 1) = L := by
    have h1 := hs J (s.lambda 1) (-F.gradU h z 1) hu
    rw [← hL] at h1
    have h3 := congrArg (J⁻¹ *ᵥ ·) h1
    simp only [mulVec_mulVec, nonsing_inv_mul _ hu, one_mulVec] at h3
    rw [← hL]; exact h3
  simp only [Problem.criterionGradient, hN, Nat.reduceSub, loopDown, zero_add,
    Problem.backwardStep, hc, Option.map_none, conMat_none, conRhs_none, hn, hjac, hpg, hD, hJ, e]

/-- The reported gradient of the instance `bar`. -/
theorem bar_gradient (n : Nat) (z : Unit → ℝ) (h : Nat → Unit → ℝ) (s : St ℝ Unit Unit Unit) :
    ((bar n).criterionGradient atOne z h s).2 () = 2 := by
  rw [grad_two (P := bar n) (jac := of fun _ _ => 2) (D := of fun _ _ => -1 / 2)
    (J := of fun _ _ => 1 / 2) (L := fun _ => -2) rfl rfl LinSolver.exact_inv rfl rfl rfl]
  · simp [atOne, bar, neg_mulVec]
  · ext i j; simp [bar, rowScaled, rowSum]
  · ext i j; simp [bar, spread, Matrix.mul_apply]; norm_num
  · rw [det_unique]; simp
  · funext i; simp [mulVec, dotProduct, atOne]

/-- The computed state of the instance `bar` with the default number of iterations. -/
theorem bar_state (z : Unit → ℝ) :
    ((bar 2).solution z ⟨0, 0, 0, 0, 0, 0⟩).hist 1 () = 3 / 2 * z () := by
  rw [(Problem.solution_step LinSolver.exact_inv (bar_regular 2 z) _).1 1 le_rfl
    (show 1 < 2 by omega)]
  show (loopUp ((bar 2).newtonPass z) 2 0 ⟨0, 0, 0, 0⟩).u () = _
  simp only [loopUp, bar_pass, Pi.zero_apply]
  ring

/-- **C101** is false for the computed states: with the default of two Newton iterations the
derivative of the criterion at the computed states is `3/2`, the reported gradient is `2`, although
the projection does not depend on the design. -/
theorem C101_derivative_false :
    HasDerivAt (fun s => ((bar 2).solution (line (fun _ => 1) (fun _ => 1) s)
      ⟨0, 0, 0, 0, 0, 0⟩).hist 1 ()) (3 / 2) 0 ∧
    ((bar 2).criterionGradient atOne (fun _ => 1)
      ((bar 2).solution (fun _ => 1) ⟨0, 0, 0, 0, 0, 0⟩).hist ⟨0, 0, 0, 0, 0, 0⟩).2 () = 2 := by
  refine ⟨?_, bar_gradient _ _ _ _⟩
  simp only [bar_state]
  have h := (hasDerivAt_pi.1 (hasDerivAt_line (fun _ : Unit => (1 : ℝ)) (fun _ => 1))) ()
  simpa using h.const_mul (3 / 2)

/-- One node with a single unknown `u`, equilibrium `u - p = 1` and projection `2 p = z u`: the
coupled system has the solution `u = 2 / (2 - z)`. -/
noncomputable def barZ : Problem ℝ Unit Unit Unit Unit where
  pde := ⟨fun u p _ => u - p - 1, fun _ _ _ => 1, fun _ _ _ => 1, fun _ _ _ => -1,
    fun _ _ _ => 0⟩
  proj := ⟨fun p n z => (2 : ℝ) • p - z () • n, fun _ _ _ => fun _ _ => 2,
    fun _ _ z => of fun _ _ => -z (), fun _ n _ => of fun _ _ => -n ()⟩
  numSteps := 2
  numNewton := 2
  con := fun _ => none
  solve := fun A _ b => A⁻¹ *ᵥ b
  pick := id
  raw := id

/-- The solutions of the coupled system. -/
noncomputable def barZPath (s : ℝ) (k : Nat) : Unit → ℝ := fun _ => if k = 1 then 2 / (1 - s) else 0

theorem barZ_lumped (z u : Unit → ℝ) : barZ.lumped z u = fun _ => z () * u () / 2 := by
  funext i
  simp [Problem.lumped, barZ, rowSummed, rowSum]
  ring

theorem barZ_gradient (s : St ℝ Unit Unit Unit) :
    (barZ.criterionGradient atOne (fun _ => 1) (barZPath 0) s).2 () = -1 := by
  rw [grad_two (P := barZ) (jac := of fun _ _ => 2) (D := of fun _ _ => -1 / 2)
    (J := of fun _ _ => 1 / 2) (L := fun _ => -2) rfl rfl LinSolver.exact_inv rfl rfl rfl]
  · simp [atOne, barZ, barZPath, mulVec, dotProduct, rowSummed, rowSum]
  · ext i j; simp [barZ, rowScaled, rowSum]
  · ext i j; simp [barZ, spread, Matrix.mul_apply]; norm_num
  · rw [det_unique]; simp
  · funext i; simp [mulVec, dotProduct, atOne]

/-- **C101** is false for projections that depend on the design: along the solutions of the coupled
system of the instance the derivative of the criterion is `2`, the reported gradient is `-1`.  The
adjoint of the projection has the wrong sign and is divided by the lumped matrix twice. -/
theorem C101_sign_false :
    (∀ᶠ s in 𝓝 (0 : ℝ), ∀ k, 1 ≤ k → k < barZ.numSteps →
      Equil barZ.pde barZ.con (line (fun _ => 1) (fun _ => 1) s) (barZPath s k)
        (barZ.lumped (line (fun _ => 1) (fun _ => 1) s) (barZPath s k))) ∧
    HasDerivAt (fun s => barZPath s 1 ()) 2 0 ∧
    (barZ.criterionGradient atOne (fun _ => 1) (barZPath 0) ⟨0, 0, 0, 0, 0, 0⟩).2 () = -1 := by
  refine ⟨?_, ?_, barZ_gradient _⟩
  · have h1 : ∀ᶠ s in 𝓝 (0 : ℝ), s ≠ 1 := eventually_ne_nhds (by norm_num)
    filter_upwards [h1] with s hs k hk1 hk2
    have hk : k = 1 := by
      have : k < 2 := hk2
      omega
    subst hk
    refine ⟨fun i v h => (by cases h), fun i _ => ?_⟩
    rw [barZ_lumped]
    have hne : (1 - s) ≠ 0 := sub_ne_zero.2 (Ne.symm hs)
    show barZPath s 1 i - (line (fun _ => 1) (fun _ => 1) s () * barZPath s 1 () / 2) - 1 = 0
    simp only [barZPath, line, Pi.add_apply, Pi.smul_apply, smul_eq_mul, mul_one, if_true]
    field_simp
    ring
  · simp only [barZPath, if_true]
    have h1 : HasDerivAt (fun s : ℝ => 1 - s) (-1) 0 := by
      simpa using (hasDerivAt_id (0 : ℝ)).const_sub 1
    have h2 := (hasDerivAt_const (0 : ℝ) (2 : ℝ)).fun_div h1 (by norm_num)
    simpa using h2

/-- One node with a displacement and a pressure: the displacement is one, the pressure equals the
projected gradient `p`, and `2 p` is `z` times the pressure. -/
noncomputable def node : Problem ℝ (Fin 2) (Fin 1) Unit Unit where
  pde := ⟨fun u p _ => ![u 0 - 1, u 1 - p ()], fun _ _ _ => 1, fun _ _ _ => 1,
    fun _ _ _ => of fun _ => ![0, -1], fun _ _ _ => 0⟩
  proj := ⟨fun p n z => fun _ => 2 * p () - z () * n 0, fun _ _ _ => fun _ _ => 2,
    fun _ _ z => of fun _ _ => -z (), fun _ n _ => of fun _ _ => -n 0⟩
  numSteps := 2
  numNewton := 2
  con := fun _ => none
  solve := fun A _ b => A⁻¹ *ᵥ b
  pick := pickOf (n := 1) (D := 2) 1
  raw := rawOf (n := 1) (D := 2) 1

/-- Displacement one and pressure zero, for every design. -/
def nodePath (k : Nat) : Fin 2 → ℝ := if k = 1 then ![1, 0] else 0

/-- The pressure of step one, as a criterion. -/
def pressure : Criterion ℝ (Fin 2) Unit :=
  ⟨fun _ _ k j => if k = 1 ∧ j = 1 then 1 else 0, fun _ _ => 0⟩

theorem node_gradient (s : St ℝ (Fin 2) (Fin 1) Unit) :
    (node.criterionGradient pressure (fun _ => 1) nodePath s).2 () = -(1 / 2) := by
  have hp : node.pick = fun _ => 1 := by funext v; rw [Subsingleton.elim v 0]; rfl
  have hr : node.raw = fun _ => 0 := by funext v; rw [Subsingleton.elim v 0]; rfl
  rw [grad_two (P := node) (jac := of fun _ _ => 2)
    (D := of fun _ => ![0, -1 / 2]) (J := !![1, 0; 0, 1 / 2]) (L := ![0, -2])
    rfl rfl LinSolver.exact_inv rfl rfl rfl]
  · rw [hr]
    simp [pressure, node, nodePath, mulVec, dotProduct, rowSummed, rowSum, Fin.sum_univ_two]
    norm_num
  · ext i j
    fin_cases j <;> simp [node, rowScaled, rowSum]
  · rw [hp]
    ext i j
    fin_cases i <;> fin_cases j <;> simp [node, Matrix.mul_apply, spread]
    norm_num
  · rw [det_fin_two_of]; norm_num
  · funext i
    fin_cases i <;> simp [mulVec, dotProduct, Fin.sum_univ_two, pressure]

/-- **C101** is false because of the argument of the projection: the pressure of the instance is
zero for every design near one, so that the projection does not change with the design and the
criterion has derivative zero; the reported gradient is `-1/2`, because the derivative of the
projection is taken with the displacement in place of the pressure. -/
theorem C101_argument_false :
    (∀ z : Unit → ℝ, ∀ k, 1 ≤ k → k < node.numSteps →
      Equil node.pde node.con z (nodePath k) (node.lumped z (nodePath k)) ∧
      node.proj.gradZ (node.lumped z (nodePath k)) (fun v => nodePath k (node.pick v)) z = 0) ∧
    HasDerivAt (fun _ : ℝ => nodePath 1 1) 0 0 ∧
    (node.criterionGradient pressure (fun _ => 1) nodePath ⟨0, 0, 0, 0, 0, 0⟩).2 () = -(1 / 2) := by
  have hp : node.pick = fun _ => 1 := by funext v; rw [Subsingleton.elim v 0]; rfl
  refine ⟨?_, hasDerivAt_const _ _, node_gradient _⟩
  intro z k hk1 hk2
  have hk : k = 1 := by
    have : k < 2 := hk2
    omega
  subst hk
  have hl : node.lumped z (nodePath 1) = 0 := by
    funext i
    simp only [Problem.lumped, hp]
    simp [node, rowSummed, nodePath]
  rw [hl, hp]
  refine ⟨⟨fun i v h => (by cases h), fun i _ => ?_⟩, ?_⟩
  · fin_cases i <;> simp [node, nodePath]
  · funext i j
    simp [node, nodePath]

/-- The hypotheses of `C101_total_derivative_partial` on the problem are met by `bar`. -/
example : (bar 2).solve.Exact ∧ (bar 2).proj.Fixed (fun _ _ => 2) (-1) ∧ 1 ≤ (bar 2).numSteps ∧
    (∀ u pg z, (bar 2).pde.gradUT u pg z = ((bar 2).pde.gradU u pg z)ᵀ) ∧
    ∀ u pg z, (bar 2).pde.IsDeriv u pg z := by
  refine ⟨LinSolver.exact_inv, ⟨?_, fun _ _ _ => rfl, fun _ _ _ => rfl, fun _ _ _ => rfl, ?_⟩,
    by simp [bar], ?_, ?_⟩
  · intro pg n z
    funext i
    simp [bar, mulVec, dotProduct]
    ring
  · intro i; simp [rowSum]
  · intro u pg z; simp [bar]
  · intro u pg z cu cp cz du dp dz _ _ _ h1 h2 h3
    have := (h1.sub h2).sub h3
    show HasDerivAt (fun s => cu s - cp s - cz s) _ 0
    refine this.congr_deriv ?_
    show _ = (1 : Matrix Unit Unit ℝ) *ᵥ du + (-1 : Matrix Unit Unit ℝ)ᵀ *ᵥ dp +
      (-1 : Matrix Unit Unit ℝ)ᵀ *ᵥ dz
    rw [transpose_neg, transpose_one, neg_mulVec, neg_mulVec, one_mulVec, one_mulVec, one_mulVec]
    abel

end Plato.Vms
