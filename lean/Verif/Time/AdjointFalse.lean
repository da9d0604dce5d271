import Verif.Time.Adjoint

/-!
# Where the adjoint gradients are wrong (C27, C30), and the self-adjoint option

The witnesses use one degree of freedom and the exact solver `A⁻¹ b`.
-/

namespace Plato

open Matrix Finset

variable {K ι ζ : Type} [Field K] [Fintype ι] [DecidableEq ι] [Fintype ζ]

theorem conMat_unit {c : Dirichlet ℚ Unit} {J : Matrix Unit Unit ℚ} {v : ℚ} (h : c () = some v) :
    conMat c J = 1 := by
  funext i j; simp [conMat, h]

/-- A spring with stiffness `z` whose only degree of freedom has the prescribed value 1. -/
noncomputable def ellSpring : EllProblem ℚ Unit Unit where
  pde := ⟨fun u z _ => z () * u (), fun _ z _ _ => z (), fun _ z _ _ => z (), fun u _ _ _ => u ()⟩
  numNewton := 1
  resSmall := fun _ => false
  incSmall := fun _ => false
  con := fun _ => some 1
  solve := fun A _ b => A⁻¹ *ᵥ b
  selfAdjoint := false

/-- **C27** is not true for `criterionGradientX` with nonzero prescribed values: for a criterion
that is constant zero, a symmetric problem and an exact solver the reported gradient is 1.  All
hypotheses of `C27_criterionGradientX_partial` but the zero prescribed values hold. -/
theorem C27_criterionGradientX_false :
    let F : EllCriterion ℚ Unit Unit := ⟨fun _ _ _ => 0, fun _ _ _ => 0⟩
    let u : Unit → ℚ := fun _ => 1
    ellSpring.solution (fun _ => 1) 0 = u ∧
    ellSpring.solve.Exact ∧
    (∀ i j, ellSpring.pde.gradU u (fun _ => 1) i j = ellSpring.pde.gradU u (fun _ => 1) j i) ∧
    IsUnit (conMat ellSpring.con (ellSpring.pde.gradU u fun _ => 1)).det ∧
    ∀ adj, ellSpring.criterionGradientX F (fun _ => 1) u adj = fun _ => 1 := by
  intro F u
  refine ⟨?_, LinSolver.exact_inv, fun i j => rfl, ?_, fun adj => ?_⟩
  · funext i
    simp [EllProblem.solution, ellSpring, EllProblem.newtonLoop, EllProblem.newtonPass,
      conMat, conRhs, newtonScale, u, mulVec, dotProduct]
  · rw [conMat_unit (c := ellSpring.con) rfl]; simp
  · funext i
    simp [EllProblem.criterionGradientX, ellSpring, conMat, conRhs, F, u, mulVec, dotProduct]

/-- The same spring as a parabolic problem with two steps. -/
noncomputable def parSpring : ParProblem ℚ Unit Unit where
  pde := ⟨fun u v z _ => z () * u () + v (), fun _ _ z _ _ => z (), fun _ _ _ _ _ => 1,
    fun u _ _ _ _ => u ()⟩
  integ := ⟨1 / 2⟩
  dt := 1
  numSteps := 2
  numNewton := 1
  resSmall := fun _ => false
  incSmall := fun _ => false
  con := fun _ => some 1
  solve := fun A _ b => A⁻¹ *ᵥ b

/-- **C30** is not true for the parabolic problem with nonzero prescribed values: the gradient of a
criterion that is constant zero is reported as 1. -/
theorem C30_parabolic_false :
    let F : ParCriterion ℚ Unit Unit := ⟨fun _ _ _ _ => 0, fun _ _ _ _ => 0, fun _ _ _ => 0⟩
    let h := parSpring.solution (fun _ => 1) ⟨fun _ _ => 0, fun _ _ => 0⟩
    parSpring.solve.Exact ∧ h.U 1 () = 1 ∧
    ∀ adj, (parSpring.criterionGradient F (fun _ => 1) h adj).2 = fun _ => 1 := by
  intro F h
  have h1 : h.U 1 () = 1 := by
    simp [h, ParProblem.solution, parSpring, loopUp, ParProblem.forwardStep, setStep,
      ParProblem.newtonLoop, ParProblem.newtonPass, newtonScale, conRhs,
      conMat_unit (c := fun _ => some (1 : ℚ)) rfl]
  refine ⟨LinSolver.exact_inv, h1, fun adj => ?_⟩
  funext i
  generalize h = h' at *
  simp [ParProblem.criterionGradient, parSpring, loopDown, ParProblem.backwardStep, conRhs, F,
    conMat_unit (c := fun _ => some (1 : ℚ)) rfl, mulVec, dotProduct, h1]

/-- The same spring as a hyperbolic problem with two steps. -/
noncomputable def hypSpring : HypProblem ℚ Unit Unit where
  pde := ⟨fun u _ a z _ _ => z () * u () + a (), fun _ _ _ z _ _ _ => z (), fun _ _ _ _ _ => 0,
    fun _ _ _ _ _ _ _ => 1, fun u _ _ _ _ _ _ => u ()⟩
  integ := ⟨1 / 2, 1 / 4⟩
  dt := 1
  numSteps := 2
  bc := fun _ _ => some 1
  solve := fun A _ b => A⁻¹ *ᵥ b
  initU := 0
  initV := 0
  initA := 0

/-- **C30** is not true for the hyperbolic problem with nonzero prescribed values: the gradient of
a criterion that is constant zero is reported as 1. -/
theorem C30_hyperbolic_false (s0 : HypState ℚ Unit) :
    let F : HypCriterion ℚ Unit Unit :=
      ⟨fun _ _ _ _ => 0, fun _ _ _ _ => 0, fun _ _ _ _ => 0, fun _ _ _ => 0⟩
    let s := hypSpring.solution (fun _ => 1) s0
    hypSpring.solve.Exact ∧ s.hist.U 1 () = 1 ∧
    (hypSpring.criterionGradient F (fun _ => 1) s).2 = fun _ => 1 := by
  intro F s
  have h1 : s.hist.U 1 () = 1 ∧ s.con = fun _ => some 1 := by
    simp [s, HypProblem.solution, hypSpring, loopUp, HypProblem.forwardStep, setStep,
      conRhs, conMat_unit (c := fun _ => some (1 : ℚ)) rfl]
  refine ⟨LinSolver.exact_inv, h1.1, ?_⟩
  funext i
  generalize s = s' at *
  simp [HypProblem.criterionGradient, hypSpring, loopDown, HypProblem.backwardStep, conRhs, F,
    conMat_unit (c := fun _ => some (1 : ℚ)) rfl, mulVec, dotProduct, h1.1, h1.2]

/-- A unit mass on a unit spring without constraints, loaded with `z * time`. -/
noncomputable def hypLoad : HypProblem ℚ Unit Unit where
  pde := ⟨fun u _ _ z t _ => u () - z () * t, fun _ _ _ _ _ => 1, fun _ _ _ _ _ => 0,
    fun _ _ _ _ _ => 0, fun _ _ _ _ t _ _ => -t⟩
  integ := ⟨1 / 2, 1 / 4⟩
  dt := 1
  numSteps := 2
  bc := fun _ _ => none
  solve := fun A _ b => A⁻¹ *ᵥ b
  initU := 0
  initV := 0
  initA := 0

/-- **C30** is not true for the hyperbolic problem when the load depends on the design and on time,
even without any constraint: the backward sweep evaluates the derivatives one time step late.  The
displacement at time 1 is the design variable itself; its gradient is reported as 2. -/
theorem C30_hyperbolic_time_false (s0 : HypState ℚ Unit) (z : Unit → ℚ) :
    let F : HypCriterion ℚ Unit Unit :=
      ⟨fun _ _ k _ => if k = 1 then 1 else 0, fun _ _ _ _ => 0, fun _ _ _ _ => 0, fun _ _ _ => 0⟩
    let s := hypLoad.solution z s0
    hypLoad.solve.Exact ∧ s.hist.U 1 () = z () ∧
    (hypLoad.criterionGradient F z s).2 = fun _ => 2 := by
  intro F s
  have hc : ∀ J, conMat (fun _ : Unit => (none : Option ℚ)) J = J := by
    intro J; funext i j; simp [conMat]
  have h1 : s.hist.U 1 () = z () ∧ s.con = fun _ => none := by
    simp [s, HypProblem.solution, hypLoad, loopUp, HypProblem.forwardStep, setStep, conRhs, hc,
      mulVec, dotProduct]
  refine ⟨LinSolver.exact_inv, h1.1, ?_⟩
  funext i
  generalize s = s' at *
  simp [HypProblem.criterionGradient, hypLoad, loopDown, HypProblem.backwardStep, conRhs, F, hc,
    mulVec, dotProduct, h1.2]

/-- **C27**, self-adjoint option: it is right for the strain energy `½ uᵀ K(z) u` of a linear
symmetric problem with zero prescribed values and loads that do not depend on the design.  The
hypotheses say just that: the state derivative of the criterion is `K u` and its partial design
derivative half the work of `∂(K u)/∂z` on `u`. -/
theorem C27_selfAdjoint_partial (P : EllProblem K ι ζ) (F : EllCriterion K ι ζ) (z dz : ζ → K)
    (u adj u' : ι → K) (h2 : (2 : K) ≠ 0) (hself : P.selfAdjoint = true)
    (hsym : ∀ i j, P.pde.gradU u z i j = P.pde.gradU u z j i)
    (hFu : F.gradU u z = P.pde.gradU u z *ᵥ u)
    (hFz : F.gradZ u z ⬝ᵥ dz = 1 / 2 * (u ⬝ᵥ ((P.pde.gradZ u z)ᵀ *ᵥ dz)))
    (hz : ∀ i v, P.con i = some v → u i = 0)
    (hlin : ∀ i, P.con i = none → (P.pde.gradU u z *ᵥ u' + (P.pde.gradZ u z)ᵀ *ᵥ dz) i = 0) :
    P.criterionGradient F z u adj ⬝ᵥ dz = F.gradU u z ⬝ᵥ u' + F.gradZ u z ⬝ᵥ dz ∧
    P.criterionGradientX F z u adj ⬝ᵥ dz = F.gradU u z ⬝ᵥ u' + F.gradZ u z ⬝ᵥ dz := by
  simp only [EllProblem.criterionGradient, EllProblem.criterionGradientX, hself, if_true,
    and_self, neg_dotProduct]
  have e2 : (P.pde.gradU u z *ᵥ u' + (P.pde.gradZ u z)ᵀ *ᵥ dz) ⬝ᵥ u = 0 := by
    rw [dot_congr_free (y := 0) hlin hz, zero_dotProduct]
  have e4 := dot_symm hsym u' u
  rw [add_dotProduct, e4, dotProduct_comm u', dotProduct_comm _ u] at e2
  rw [hFu, hFz]
  field_simp
  linear_combination -2 * e2

end Plato
