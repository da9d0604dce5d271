import Mathlib.LinearAlgebra.Matrix.Determinant.Basic
import Verif.Time.TotalDerivHyp
import Verif.Time.TotalDerivPar

/-!
# The hypotheses of the gradient theorems are met

Two degrees of freedom, the first one held at zero, a stiffness that is the design variable, and
the displacement of the second degree of freedom as criterion.
-/

namespace Plato

open Matrix Finset

def exCon : Dirichlet ℝ (Fin 2) := fun i => if i = 0 then some 0 else none

theorem exCon_zero : ∀ i v, exCon i = some v → v = 0 := by
  intro i v h
  simp only [exCon] at h
  split at h <;> simp_all

theorem exCon_det (k : ℝ) (hk : k ≠ 0) : (conMat exCon (k • (1 : Matrix (Fin 2) (Fin 2) ℝ))).det ≠ 0 := by
  simp [det_fin_two, conMat, exCon, hk]

/-! ### Elliptic -/

noncomputable def exEll : EllProblem ℝ (Fin 2) Unit where
  pde := ⟨fun u z i => z () * u i - 1, fun _ z => z () • 1, fun _ z => z () • 1,
    fun u _ _ i => u i⟩
  numNewton := 1
  resSmall := fun _ => false
  incSmall := fun _ => false
  con := exCon
  solve := fun A _ b => A⁻¹ *ᵥ b
  selfAdjoint := false

def exEllF : EllCriterion ℝ (Fin 2) Unit := ⟨fun _ _ i => if i = 1 then 1 else 0, fun _ _ _ => 0⟩

/-- `C27_linear_problem` applies. -/
example : HasDerivAt (fun s => exEll.solution (line (fun _ => 2) (fun _ => 1) s) 0 1)
    (exEll.criterionGradient exEllF (fun _ => 2) (exEll.solution (fun _ => 2) 0) 0 ⬝ᵥ fun _ => 1)
    0 := by
  refine C27_linear_problem exEll exEllF (fun u _ => u 1) (fun _ => 2) (fun _ => 1) 0 0 rfl
    LinSolver.exact_inv rfl ?_ ?_ ?_ ?_ ?_ ?_
  · intro u; simp [exEll]
  · intro u du z; funext i
    simp [exEll, smul_mulVec]; ring
  · intro z i j
    simp only [exEll, Matrix.smul_apply, Matrix.one_apply, eq_comm]
  · exact exCon_det 2 (by norm_num)
  · intro u cu cz du dz hu hz hdu hdz
    refine hasDerivAt_pi.2 fun i => ?_
    have h1 := ((hasDerivAt_pi.1 hdz ()).mul (hasDerivAt_pi.1 hdu i)).sub_const 1
    refine h1.congr_deriv ?_
    simp only [exEll, hu, hz, Pi.add_apply, smul_mulVec, one_mulVec, Pi.smul_apply, smul_eq_mul]
    simp [mulVec, dotProduct]; ring_nf; rfl
  · intro u cu cz du dz hu hz hdu hdz
    have h1 := hasDerivAt_pi.1 hdu 1
    refine h1.congr_deriv ?_
    simp [exEllF, dotProduct]

/-! ### Hyperbolic -/

noncomputable def exHyp : HypProblem ℝ (Fin 2) Unit where
  pde := ⟨fun u v a z t i => z () * u i + v i + a i - t, fun _ _ _ z _ => z () • 1,
    fun _ _ _ _ _ => 1, fun _ _ _ _ _ => 1, fun u _ _ _ _ _ i => u i⟩
  integ := ⟨1 / 2, 1 / 4⟩
  dt := 1
  numSteps := 3
  bc := fun _ => exCon
  solve := fun A _ b => A⁻¹ *ᵥ b
  initU := 0
  initV := 1
  initA := 0

def exHypF : HypCriterion ℝ (Fin 2) Unit :=
  ⟨fun _ _ k i => if k = 2 ∧ i = 1 then 1 else 0, fun _ _ _ _ => 0, fun _ _ _ _ => 0,
    fun _ _ _ => 0⟩

/-- `C30_hyperbolic_linear_problem_partial` applies. -/
example (s0 : HypState ℝ (Fin 2)) :
    HasDerivAt (fun s => (exHyp.solution (line (fun _ => 2) (fun _ => 1) s) s0).hist.U 2 1)
    ((exHyp.criterionGradient exHypF (fun _ => 2) (exHyp.solution (fun _ => 2) s0)).2 ⬝ᵥ
      fun _ => 1) 0 := by
  refine C30_hyperbolic_linear_problem_partial exHyp exHypF (fun h _ => h.U 2 1) (fun _ => 2)
    (fun _ => 1) exCon s0 (by norm_num [exHyp]) (by norm_num [exHyp]) (by norm_num [exHyp])
    LinSolver.exact_inv (fun _ => rfl) exCon_zero ?_ ?_ ?_ ?_ (fun _ _ _ _ _ _ => rfl)
    (fun _ _ _ _ _ _ => rfl) (fun _ _ _ _ _ _ => rfl) (fun _ _ _ _ _ _ => rfl) ?_ ?_ ?_
  · intro z t u v a du dv da; funext i
    simp [exHyp, smul_mulVec]; ring
  · intro u v a z t i j
    simp only [exHyp, Matrix.smul_apply, Matrix.one_apply, eq_comm]
  · intro u v a z t i j
    simp only [exHyp, Matrix.one_apply, eq_comm]
  · intro u v a z t i j
    simp only [exHyp, Matrix.one_apply, eq_comm]
  · have : exHyp.sysMat 0 0 0 (fun _ => 2) 0 = (8 : ℝ) • (1 : Matrix (Fin 2) (Fin 2) ℝ) := by
      simp only [HypProblem.sysMat, exHyp]
      ext i j
      simp only [Matrix.add_apply, Matrix.smul_apply, smul_eq_mul]; ring
    rw [this]
    exact exCon_det 8 (by norm_num)
  · intro u v a t cu cv ca cz du dv da dz hu hv ha hz hdu hdv hda hdz
    refine hasDerivAt_pi.2 fun i => ?_
    have h1 := ((((hasDerivAt_pi.1 hdz ()).mul (hasDerivAt_pi.1 hdu i)).add
      (hasDerivAt_pi.1 hdv i)).add (hasDerivAt_pi.1 hda i)).sub_const t
    refine h1.congr_deriv ?_
    simp only [exHyp, hu, hz, Pi.add_apply, smul_mulVec, one_mulVec, Pi.smul_apply, smul_eq_mul]
    simp [mulVec, dotProduct]; ring_nf; rfl
  · intro h ch cz t dz hh hz hU hV hA hdz
    have h1 := hasDerivAt_pi.1 (hU 2 (by norm_num [exHyp])) 1
    refine h1.congr_deriv ?_
    simp [exHypF, HypCriterion.along, dotProduct, exHyp, sum_range_succ]

/-! ### Parabolic -/

noncomputable def exPar : ParProblem ℝ (Fin 2) Unit where
  pde := ⟨fun u v z i => z () * u i + v i - 1, fun _ _ z => z () • 1, fun _ _ _ => 1,
    fun u _ _ _ i => u i⟩
  integ := ⟨1 / 2⟩
  dt := 1
  numSteps := 3
  numNewton := 1
  resSmall := fun _ => false
  incSmall := fun _ => false
  con := exCon
  solve := fun A _ b => A⁻¹ *ᵥ b

def exParF : ParCriterion ℝ (Fin 2) Unit :=
  ⟨fun _ _ k i => if k = 2 ∧ i = 1 then 1 else 0, fun _ _ _ _ => 0, fun _ _ _ => 0⟩

/-- `C30_parabolic_linear_problem_partial` applies. -/
example (h0 : ParHist ℝ (Fin 2)) (adj) :
    HasDerivAt (fun s => (exPar.solution (line (fun _ => 2) (fun _ => 1) s) h0).U 2 1)
    ((exPar.criterionGradient exParF (fun _ => 2) (exPar.solution (fun _ => 2) h0) adj).2 ⬝ᵥ
      fun _ => 1) 0 := by
  refine C30_parabolic_linear_problem_partial exPar exParF (fun h _ => h.U 2 1) (fun _ => 2)
    (fun _ => 1) h0 adj (by norm_num [exPar]) (by norm_num [exPar]) (by norm_num [exPar]) rfl
    LinSolver.exact_inv ?_ ?_ ?_ ?_ exCon_zero ?_ ?_
  · intro u v du dv z; funext i
    simp [exPar, smul_mulVec]; ring
  · intro u v i j
    simp only [exPar, Matrix.smul_apply, Matrix.one_apply, eq_comm]
  · intro u v i j
    simp only [exPar, Matrix.one_apply, eq_comm]
  · have : exPar.sysMat 0 0 (fun _ => 2) = (4 : ℝ) • (1 : Matrix (Fin 2) (Fin 2) ℝ) := by
      simp only [ParProblem.sysMat, exPar]
      ext i j
      simp only [Matrix.add_apply, Matrix.smul_apply, smul_eq_mul]; ring
    rw [this]
    exact exCon_det 4 (by norm_num)
  · intro u v cu cv cz du dv dz hu hv hz hdu hdv hdz
    refine hasDerivAt_pi.2 fun i => ?_
    have h1 := (((hasDerivAt_pi.1 hdz ()).mul (hasDerivAt_pi.1 hdu i)).add
      (hasDerivAt_pi.1 hdv i)).sub_const 1
    refine h1.congr_deriv ?_
    simp only [exPar, hu, hz, Pi.add_apply, smul_mulVec, one_mulVec, Pi.smul_apply, smul_eq_mul]
    simp [mulVec, dotProduct]; ring_nf; rfl
  · intro h ch cz t dz hh hz hU hV hdz
    have h1 := hasDerivAt_pi.1 (hU 2 (by norm_num [exPar])) 1
    refine h1.congr_deriv ?_
    simp [exParF, ParCriterion.along, dotProduct, exPar, sum_range_succ]

end Plato
