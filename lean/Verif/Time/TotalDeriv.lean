import Mathlib.Analysis.Calculus.Deriv.Prod
import Mathlib.Analysis.Calculus.Deriv.Add
import Mathlib.Analysis.Calculus.Deriv.Mul
import Mathlib.Analysis.Calculus.Deriv.Inv
import Mathlib.Analysis.Calculus.FDeriv.Mul
import Mathlib.LinearAlgebra.Matrix.Adjugate
import Verif.Time.Adjoint

/-!
# Adjoint gradients are total derivatives (C27)

Real scalars.  "The reported matrices are the derivatives of the residual" is expressed along
differentiable curves, which every Fréchet derivative satisfies.
-/

namespace Plato

open Matrix Finset Filter Topology

variable {ι ζ : Type} [Fintype ι] [DecidableEq ι] [Fintype ζ]

/-! ## Solutions of differentiable linear systems -/

theorem differentiableAt_det {A : ℝ → Matrix ι ι ℝ}
    (hA : ∀ i j, DifferentiableAt ℝ (fun s => A s i j) 0) :
    DifferentiableAt ℝ (fun s => (A s).det) 0 := by
  simp only [det_apply']
  refine DifferentiableAt.fun_sum fun σ _ => ?_
  refine DifferentiableAt.const_mul ?_ _
  exact DifferentiableAt.fun_finsetProd fun i _ => hA _ _

/-- A vector that solves a differentiable linear system with invertible matrix is
differentiable. -/
theorem differentiableAt_solution {A : ℝ → Matrix ι ι ℝ} {b x : ℝ → ι → ℝ}
    (hA : ∀ i j, DifferentiableAt ℝ (fun s => A s i j) 0)
    (hb : ∀ i, DifferentiableAt ℝ (fun s => b s i) 0) (hdet : (A 0).det ≠ 0)
    (hx : ∀ᶠ s in 𝓝 (0 : ℝ), A s *ᵥ x s = b s) (i : ι) :
    DifferentiableAt ℝ (fun s => x s i) 0 := by
  have hd := differentiableAt_det hA
  have hne : ∀ᶠ s in 𝓝 (0 : ℝ), (A s).det ≠ 0 := hd.continuousAt.eventually_ne hdet
  have hform : (fun s => x s i) =ᶠ[𝓝 0] fun s => ((A s).updateCol i (b s)).det / (A s).det := by
    filter_upwards [hx, hne] with s hs hn
    rw [eq_div_iff hn, ← cramer_apply, ← hs]
    have := congrFun (congrArg (· *ᵥ x s) (adjugate_mul (A s))) i
    simp only [← mulVec_mulVec] at this
    rw [cramer_eq_adjugate_mulVec, this]
    simp [smul_mulVec, mul_comm]
  refine DifferentiableAt.congr_of_eventuallyEq ?_ hform
  refine DifferentiableAt.fun_div (differentiableAt_det ?_) hd hdet
  intro k l
  simp only [updateCol_apply]
  split
  · exact hb k
  · exact hA k l

theorem isUnit_det_iff {A : Matrix ι ι ℝ} : IsUnit A.det ↔ A.det ≠ 0 := isUnit_iff_ne_zero

omit [Fintype ι] in
/-- The constrained matrix depends differentiably on the matrix. -/
theorem differentiableAt_conMat {c : Dirichlet ℝ ι} {J : ℝ → Matrix ι ι ℝ}
    (hJ : ∀ i j, DifferentiableAt ℝ (fun s => J s i j) 0) (i j : ι) :
    DifferentiableAt ℝ (fun s => conMat c (J s) i j) 0 := by
  simp only [conMat]
  split
  · exact differentiableAt_const _
  · exact hJ i j

omit [DecidableEq ι] in
theorem differentiableAt_conRhs {c : Dirichlet ℝ ι} {J : ℝ → Matrix ι ι ℝ} {b : ℝ → ι → ℝ} {r : ℝ}
    (hJ : ∀ i j, DifferentiableAt ℝ (fun s => J s i j) 0)
    (hb : ∀ i, DifferentiableAt ℝ (fun s => b s i) 0) (i : ι) :
    DifferentiableAt ℝ (fun s => conRhs r c (J s) (b s) i) 0 := by
  unfold conRhs
  rcases c i with _ | v
  · refine (hb i).sub (DifferentiableAt.fun_sum fun j _ => ?_)
    exact (hJ j i).mul_const _
  · exact differentiableAt_const _

omit [DecidableEq ι] in
theorem differentiableAt_mulVec {J : ℝ → Matrix ι ι ℝ} {b : ℝ → ι → ℝ}
    (hJ : ∀ i j, DifferentiableAt ℝ (fun s => J s i j) 0)
    (hb : ∀ i, DifferentiableAt ℝ (fun s => b s i) 0) (i : ι) :
    DifferentiableAt ℝ (fun s => (J s *ᵥ b s) i) 0 := by
  simp only [mulVec, dotProduct]
  exact DifferentiableAt.fun_sum fun j _ => (hJ i j).mul (hb j)

/-- The curve of designs through `z` in direction `dz`. -/
def line (z dz : ζ → ℝ) (s : ℝ) : ζ → ℝ := z + s • dz

omit [Fintype ζ] in
@[simp] theorem line_zero (z dz : ζ → ℝ) : line z dz 0 = z := by simp [line]

theorem hasDerivAt_line (z dz : ζ → ℝ) : HasDerivAt (line z dz) dz 0 := by
  unfold line
  have : HasDerivAt (fun s : ℝ => s • dz) ((1 : ℝ) • dz) 0 := (hasDerivAt_id (0 : ℝ)).smul_const dz
  rw [one_smul] at this
  exact this.const_add z

/-! ## Elliptic problem -/

/-- The reported matrices are the derivatives of the residual at `(u,z)`. -/
def EllPde.IsDeriv (pde : EllPde ℝ ι ζ) (u : ι → ℝ) (z : ζ → ℝ) : Prop :=
  ∀ (cu : ℝ → ι → ℝ) (cz : ℝ → ζ → ℝ) (du : ι → ℝ) (dz : ζ → ℝ), cu 0 = u → cz 0 = z →
    HasDerivAt cu du 0 → HasDerivAt cz dz 0 →
    HasDerivAt (fun s => pde.value (cu s) (cz s))
      (pde.gradU u z *ᵥ du + (pde.gradZ u z)ᵀ *ᵥ dz) 0

/-- The reported vectors are the derivatives of the criterion `f` at `(u,z)`. -/
def EllCriterion.IsDeriv (F : EllCriterion ℝ ι ζ) (f : (ι → ℝ) → (ζ → ℝ) → ℝ) (u : ι → ℝ)
    (z : ζ → ℝ) : Prop :=
  ∀ (cu : ℝ → ι → ℝ) (cz : ℝ → ζ → ℝ) (du : ι → ℝ) (dz : ζ → ℝ), cu 0 = u → cz 0 = z →
    HasDerivAt cu du 0 → HasDerivAt cz dz 0 →
    HasDerivAt (fun s => f (cu s) (cz s)) (F.gradU u z ⬝ᵥ du + F.gradZ u z ⬝ᵥ dz) 0

/-- **C27**: along any differentiable family of states that solves the (possibly nonlinear) problem
with the prescribed values, the derivative of the criterion is the reported gradient applied to
the design direction.  Any prescribed values, no symmetry. -/
theorem C27_total_derivative (P : EllProblem ℝ ι ζ) (F : EllCriterion ℝ ι ζ)
    (f : (ι → ℝ) → (ζ → ℝ) → ℝ) (z dz : ζ → ℝ) (u : ℝ → ι → ℝ) (u' adj : ι → ℝ)
    (hs : P.solve.Exact) (hself : P.selfAdjoint = false)
    (hT : P.pde.gradUT (u 0) z = (P.pde.gradU (u 0) z)ᵀ)
    (hdet : (conMat P.con (P.pde.gradU (u 0) z)).det ≠ 0)
    (hu : HasDerivAt u u' 0)
    (hcon : ∀ᶠ s in 𝓝 (0 : ℝ), ∀ i v, P.con i = some v → u s i = v)
    (hfree : ∀ᶠ s in 𝓝 (0 : ℝ), ∀ i, P.con i = none → P.pde.value (u s) (line z dz s) i = 0)
    (hpde : P.pde.IsDeriv (u 0) z) (hF : F.IsDeriv f (u 0) z) :
    HasDerivAt (fun s => f (u s) (line z dz s))
      (P.criterionGradient F z (u 0) adj ⬝ᵥ dz) 0 := by
  rw [C27_criterionGradient P F z dz (u 0) adj u' hs hself hT (isUnit_det_iff.2 hdet)]
  · exact hF u (line z dz) u' dz rfl (line_zero z dz) hu (hasDerivAt_line z dz)
  · intro i v hi
    have h1 : HasDerivAt (fun s => u s i) (u' i) 0 := (hasDerivAt_pi.1 hu) i
    have h2 : (fun s => u s i) =ᶠ[𝓝 0] fun _ => v := hcon.mono fun s h => h i v hi
    exact (h1.congr_of_eventuallyEq h2.symm).unique (hasDerivAt_const _ _)
  · intro i hi
    have h1 := (hasDerivAt_pi.1 (hpde u (line z dz) u' dz rfl (line_zero z dz) hu
      (hasDerivAt_line z dz))) i
    have h2 : (fun s => P.pde.value (u s) (line z dz s) i) =ᶠ[𝓝 0] fun _ => 0 :=
      hfree.mono fun s h => h i hi
    exact (h1.congr_of_eventuallyEq h2.symm).unique (hasDerivAt_const _ _)

/-- The residual is affine in the state. -/
def EllPde.Affine (pde : EllPde ℝ ι ζ) : Prop :=
  ∀ u du z, pde.value (u + du) z = pde.value u z + pde.gradU u z *ᵥ du

omit [Fintype ζ] in
theorem EllPde.Affine.entry {pde : EllPde ℝ ι ζ} (h : pde.Affine) (z : ζ → ℝ) (i j : ι) :
    pde.gradU 0 z i j = pde.value (Pi.single j 1) z i - pde.value 0 z i := by
  have := congrFun (h 0 (Pi.single j 1) z) i
  rw [zero_add] at this
  rw [this]
  simp

omit [Fintype ζ] in
theorem EllPde.Affine.const {pde : EllPde ℝ ι ζ} (h : pde.Affine) (u : ι → ℝ) (z : ζ → ℝ) :
    pde.gradU u z = pde.gradU 0 z := by
  ext i j
  have h1 := congrFun (h u (Pi.single j 1) z) i
  have h2 := congrFun (h 0 (u + Pi.single j 1) z) i
  have h3 := congrFun (h 0 u z) i
  simp only [zero_add, mulVec_add, Pi.add_apply, mulVec_single_one, col_apply] at h1 h2 h3
  linarith

theorem EllPde.IsDeriv.value_along {pde : EllPde ℝ ι ζ} {u : ι → ℝ} {z : ζ → ℝ}
    (h : pde.IsDeriv u z) (dz : ζ → ℝ) (i : ι) :
    DifferentiableAt ℝ (fun s => pde.value u (line z dz s) i) 0 :=
  ((hasDerivAt_pi.1 (h (fun _ => u) (line z dz) 0 dz rfl (line_zero z dz) (hasDerivAt_const _ _)
    (hasDerivAt_line z dz))) i).differentiableAt

omit [Fintype ζ] in
/-- A single Newton iteration on the zero state. -/
theorem EllProblem.solution_one {P : EllProblem ℝ ι ζ} (hn : P.numNewton = 1) (z : ζ → ℝ)
    (old : ι → ℝ) : P.solution z old = P.solve (conMat P.con (P.pde.gradU 0 z)) 0
      (conRhs 1 P.con (P.pde.gradU 0 z) (-P.pde.value 0 z)) := by
  simp [EllProblem.solution, hn, EllProblem.newtonLoop, EllProblem.newtonPass, newtonScale]

omit [Fintype ζ] in
/-- With an affine residual, a symmetric matrix and an exact solve the computed state satisfies the
prescribed values and the free equations. -/
theorem EllProblem.solution_ok {P : EllProblem ℝ ι ζ} (hn : P.numNewton = 1) (hs : P.solve.Exact)
    (haff : P.pde.Affine) {z : ζ → ℝ}
    (hsym : ∀ i j, P.pde.gradU 0 z i j = P.pde.gradU 0 z j i)
    (hdet : (conMat P.con (P.pde.gradU 0 z)).det ≠ 0) (old : ι → ℝ) :
    (∀ i v, P.con i = some v → P.solution z old i = v) ∧
    ∀ i, P.con i = none → P.pde.value (P.solution z old) z i = 0 := by
  rw [P.solution_one hn]
  have h := hs _ 0 (conRhs 1 P.con (P.pde.gradU 0 z) (-P.pde.value 0 z)) (isUnit_det_iff.2 hdet)
  obtain ⟨h1, h2⟩ := (conSys_symm hsym).1 h
  refine ⟨fun i v hi => by rw [h1 i v hi, one_mul], fun i hi => ?_⟩
  have := haff 0 (P.solve (conMat P.con (P.pde.gradU 0 z)) 0
    (conRhs 1 P.con (P.pde.gradU 0 z) (-P.pde.value 0 z))) z
  rw [zero_add] at this
  rw [this, Pi.add_apply, h2 i hi, Pi.neg_apply]; ring

/-- **C27**, end to end for a linear problem: `criterionGradient` after `solution` is the derivative
of `control ↦ criterion(solution(control), control)` in every direction, for every prescribed
boundary data, whatever was stored in the problem object before. -/
theorem C27_linear_problem (P : EllProblem ℝ ι ζ) (F : EllCriterion ℝ ι ζ)
    (f : (ι → ℝ) → (ζ → ℝ) → ℝ) (z dz : ζ → ℝ) (old adj : ι → ℝ)
    (hn : P.numNewton = 1) (hs : P.solve.Exact) (hself : P.selfAdjoint = false)
    (hT : ∀ u, P.pde.gradUT u z = (P.pde.gradU u z)ᵀ)
    (haff : P.pde.Affine) (hsym : ∀ z i j, P.pde.gradU 0 z i j = P.pde.gradU 0 z j i)
    (hdet : (conMat P.con (P.pde.gradU 0 z)).det ≠ 0)
    (hpde : ∀ u, P.pde.IsDeriv u z) (hF : ∀ u, F.IsDeriv f u z) :
    HasDerivAt (fun s => f (P.solution (line z dz s) old) (line z dz s))
      (P.criterionGradient F z (P.solution z old) adj ⬝ᵥ dz) 0 := by
  have hJ : ∀ i j, DifferentiableAt ℝ (fun s => P.pde.gradU 0 (line z dz s) i j) 0 := by
    intro i j
    simp only [haff.entry]
    exact ((hpde _).value_along dz i).sub ((hpde 0).value_along dz i)
  have hC := fun i j => differentiableAt_conMat (c := P.con) hJ i j
  have hb : ∀ i, DifferentiableAt ℝ (fun s => conRhs 1 P.con (P.pde.gradU 0 (line z dz s))
      (-P.pde.value 0 (line z dz s)) i) 0 :=
    fun i => differentiableAt_conRhs hJ (fun i => ((hpde 0).value_along dz i).neg) i
  have hd0 : (conMat P.con (P.pde.gradU 0 (line z dz 0))).det ≠ 0 := by simpa using hdet
  have hne : ∀ᶠ s in 𝓝 (0 : ℝ), (conMat P.con (P.pde.gradU 0 (line z dz s))).det ≠ 0 :=
    (differentiableAt_det hC).continuousAt.eventually_ne hd0
  have hdiff : DifferentiableAt ℝ (fun s => P.solution (line z dz s) old) 0 := by
    refine differentiableAt_pi.2 fun i => ?_
    refine differentiableAt_solution hC hb hd0 ?_ i
    filter_upwards [hne] with s h
    rw [P.solution_one hn]
    exact hs _ _ _ (isUnit_det_iff.2 h)
  have := C27_total_derivative P F f z dz (fun s => P.solution (line z dz s) old) _ adj hs hself
    (hT _) (by simpa [haff.const] using hdet) hdiff.hasDerivAt
    (hne.mono fun s h => (P.solution_ok hn hs haff (hsym _) h old).1)
    (hne.mono fun s h => (P.solution_ok hn hs haff (hsym _) h old).2)
    (by simpa using hpde _) (by simpa using hF _)
  simpa using this

end Plato
