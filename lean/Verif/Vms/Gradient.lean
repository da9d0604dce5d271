import Verif.Vms.Forward

/-!
# The stabilised problem: gradients (C101)
-/

namespace Plato.Vms

open Matrix Finset Filter Topology

variable {K ι ν π ζ : Type} [Field K] [Fintype ι] [DecidableEq ι] [Fintype ν] [Fintype π]
  [Fintype ζ]

/-- The projected gradient that belongs to a state: the lumped projection. -/
def Problem.lumped (P : Problem K ι ν π ζ) (z : ζ → K) (u : ι → K) : π → K :=
  rowSummed (P.proj.gradU 0 (fun v => u (P.pick v)) z) (-P.proj.value 0 (fun v => u (P.pick v)) z)

/-- The projection is linear in the projected gradient and the projected field, with the matrices
`M` and `B`, and does not depend on the design. -/
structure Proj.Fixed (p : Proj K ν π ζ) (M : Matrix π π K) (B : Matrix ν π K) : Prop where
  value : ∀ pg n z, p.value pg n z = M *ᵥ pg + Bᵀ *ᵥ n
  gradU : ∀ pg n z, p.gradU pg n z = M
  gradNT : ∀ pg n z, p.gradNT pg n z = B
  gradZ : ∀ pg n z, p.gradZ pg n z = 0
  rows : ∀ i, rowSum M i ≠ 0

omit [DecidableEq ι] [Fintype π] [Fintype ζ] [Fintype ν] [Field K] in
theorem sum_pick [Field K] [DecidableEq ι] [Fintype ν] (pick : ν → ι) (a : ν → K) (x : ι → K) :
    ∑ i, (∑ v, if pick v = i then a v else 0) * x i = ∑ v, a v * x (pick v) := by
  simp only [sum_mul, ite_mul, zero_mul]
  rw [sum_comm]
  refine sum_congr rfl fun v _ => ?_
  simp

omit [Fintype ζ] [Fintype π] in
/-- Scalar product with the spread matrix. -/
theorem spread_dot (pick : ν → ι) (M : Matrix ν ι K) (L x : ι → K) :
    (spread pick M *ᵥ L) ⬝ᵥ x = (M *ᵥ L) ⬝ᵥ fun v => x (pick v) := by
  simp only [dotProduct, mulVec, spread]
  rw [← sum_pick pick (fun v => ∑ j, M v j * L j) x]
  refine sum_congr rfl fun i _ => ?_
  congr 1
  simp only [sum_mul, ite_mul, zero_mul]
  rw [sum_comm]
  refine sum_congr rfl fun v _ => ?_
  split <;> simp

/-- A history satisfies the linearised coupled equations in the design direction `dz` around the
history `h`: fixed first step and prescribed values; at the free degrees of freedom the linearised
equilibrium, with the change `q` of the projected gradient; the change of the lumped projection. -/
structure Tangent (P : Problem K ι ν π ζ) (M : Matrix π π K) (B : Matrix ν π K) (z dz : ζ → K)
    (h t : Nat → ι → K) (q : Nat → π → K) : Prop where
  init : t 0 = 0
  fixed : ∀ k, 1 ≤ k → k < P.numSteps → ∀ i v, P.con i = some v → t k i = 0
  equil : ∀ k, 1 ≤ k → k < P.numSteps → ∀ i, P.con i = none →
    (P.pde.gradU (h k) (P.lumped z (h k)) z *ᵥ t k +
      (P.pde.gradNT (h k) (P.lumped z (h k)) z)ᵀ *ᵥ q k +
      (P.pde.gradZ (h k) (P.lumped z (h k)) z)ᵀ *ᵥ dz) i = 0
  lump : ∀ k, 1 ≤ k → k < P.numSteps → ∀ i,
    rowSum M i * q k i + (Bᵀ *ᵥ fun v => t k (P.pick v)) i = 0

/-- The condensed matrix of step `k`, not transposed. -/
def Problem.condensed (P : Problem K ι ν π ζ) (M : Matrix π π K) (B : Matrix ν π K) (z : ζ → K)
    (u : ι → K) : Matrix ι ι K :=
  P.pde.gradUT u (P.lumped z u) z -
    spread P.pick (B * rowScaled M (P.pde.gradNT u (P.lumped z u) z))

/-- **C101** (gradient, algebraic form): when the projection does not depend on the design, the
gradient returned by `criterionGradient`, applied to a design direction, is the change of the
criterion along the linearised solution of the coupled system, for every number of steps, any
prescribed values, without symmetry and whatever is stored. -/
theorem C101_gradient_partial (P : Problem K ι ν π ζ) (F : Criterion K ι ζ) (M : Matrix π π K)
    (B : Matrix ν π K) (z dz : ζ → K) (h t : Nat → ι → K) (q : Nat → π → K) (s : St K ι ν π)
    (hs : P.solve.Exact) (hp : P.proj.Fixed M B) (hN : 1 ≤ P.numSteps)
    (hT : ∀ u pg, P.pde.gradUT u pg z = (P.pde.gradU u pg z)ᵀ)
    (hdet : ∀ k, 1 ≤ k → k < P.numSteps → IsUnit (conMat P.con (P.condensed M B z (h k))).det)
    (ht : Tangent P M B z dz h t q) :
    (P.criterionGradient F z h s).2 ⬝ᵥ dz =
      ∑ k ∈ range P.numSteps, F.gradU h z k ⬝ᵥ t k + F.gradZ h z ⬝ᵥ dz := by
  have key := loopDown_inv (body := P.backwardStep F z h)
    (fun j (r : St K ι ν π × (ζ → K)) => r.2 ⬝ᵥ dz =
      ∑ k ∈ Ico (j + 1) P.numSteps, F.gradU h z k ⬝ᵥ t k + F.gradZ h z ⬝ᵥ dz)
    (P.numSteps - 1) (s, F.gradZ h z)
    (by rw [show P.numSteps - 1 + 1 = P.numSteps by omega]; simp)
    (by
      intro j r h1 h2 ih
      have hj : j < P.numSteps := by omega
      rw [show j - 1 + 1 = j by omega, sum_eq_sum_Ico_succ_bot hj]
      simp only [Problem.backwardStep, hp.gradU, hp.gradNT, hp.gradZ, zero_mulVec, add_zero]
      have el : rowSummed M (-P.proj.value 0 (fun v => h j (P.pick v)) z) = P.lumped z (h j) := by
        simp only [Problem.lumped, hp.gradU]
      rw [el]
      set pg := P.lumped z (h j) with hpg
      have hC : P.pde.gradUT (h j) pg z - spread P.pick (B * rowScaled M (P.pde.gradNT (h j) pg z))
          = P.condensed M B z (h j) := rfl
      rw [hC]
      set con0 : Dirichlet K ι := fun i => (P.con i).map fun _ => 0 with hc0
      have hmat : conMat con0 (P.condensed M B z (h j)) = conMat P.con (P.condensed M B z (h j)) := by
        funext a b
        simp only [conMat, hc0, Option.isSome_map]
      have hL := hs (conMat con0 (P.condensed M B z (h j))) (r.1.lambda j)
        (conRhs 1 con0 (P.condensed M B z (h j)) (-F.gradU h z j)) (by rw [hmat]; exact hdet j h1 hj)
      have hz : ∀ i v, con0 i = some v → 1 * v = 0 := by
        intro i v hi
        simp only [hc0, Option.map_eq_some_iff] at hi
        obtain ⟨_, -, rfl⟩ := hi
        simp
      obtain ⟨hL0, hLs⟩ := (conSys_zero hz).1 hL
      set L := P.solve (conMat con0 (P.condensed M B z (h j))) (r.1.lambda j)
        (conRhs 1 con0 (P.condensed M B z (h j)) (-F.gradU h z j))
      have hL0' : ∀ i v, P.con i = some v → L i = 0 := fun i v hi => hL0 i 0 (by simp [hc0, hi])
      have hLs' : ∀ i, P.con i = none → (P.condensed M B z (h j) *ᵥ L) i = (-F.gradU h z j) i :=
        fun i hi => hLs i (by simp [hc0, hi])
      have e1 := dot_congr_free hLs' (ht.fixed j h1 hj)
      have e2 : (P.pde.gradU (h j) pg z *ᵥ t j + (P.pde.gradNT (h j) pg z)ᵀ *ᵥ q j +
          (P.pde.gradZ (h j) pg z)ᵀ *ᵥ dz) ⬝ᵥ L = 0 := by
        rw [dot_congr_free (y := 0) (ht.equil j h1 hj) hL0', zero_dotProduct]
      have e3 := dot_transpose (P.pde.gradZ (h j) pg z) L dz
      have e4 := dot_transpose (P.pde.gradU (h j) pg z) (t j) L
      have e5 := dot_transpose (P.pde.gradNT (h j) pg z) L (q j)
      -- the condensed term
      have e6 : (spread P.pick (B * rowScaled M (P.pde.gradNT (h j) pg z)) *ᵥ L) ⬝ᵥ t j =
          -((P.pde.gradNT (h j) pg z *ᵥ L) ⬝ᵥ q j) := by
        rw [spread_dot, ← mulVec_mulVec, dot_transpose B]
        simp only [dotProduct]
        rw [← sum_neg_distrib]
        refine sum_congr rfl fun i _ => ?_
        have hl := ht.lump j h1 hj i
        have hr : (rowScaled M (P.pde.gradNT (h j) pg z) *ᵥ L) i =
            (P.pde.gradNT (h j) pg z *ᵥ L) i / rowSum M i := by
          simp only [mulVec, dotProduct, rowScaled, div_eq_mul_inv, sum_mul]
          exact sum_congr rfl fun b _ => by ring
        rw [hr, eq_neg_of_add_eq_zero_right hl]
        have := hp.rows i
        field_simp
      have e7 : (P.condensed M B z (h j) *ᵥ L) ⬝ᵥ t j =
          ((P.pde.gradU (h j) pg z)ᵀ *ᵥ L) ⬝ᵥ t j + (P.pde.gradNT (h j) pg z *ᵥ L) ⬝ᵥ q j := by
        show ((P.pde.gradUT (h j) pg z - spread P.pick
          (B * rowScaled M (P.pde.gradNT (h j) pg z))) *ᵥ L) ⬝ᵥ t j = _
        rw [sub_mulVec, sub_dotProduct, e6, hT, sub_neg_eq_add]
      rw [dotProduct_comm (t j)] at e4
      rw [dotProduct_comm L] at e3 e5
      simp only [add_dotProduct, neg_dotProduct] at e1 e2 ⊢
      linear_combination ih + e3 + e2 - e4 - e1 + e7 + e5)
  rw [zero_add] at key
  rw [Problem.criterionGradient, key, range_eq_Ico, sum_eq_sum_Ico_succ_bot (show 0 < P.numSteps by omega),
    ht.init, dotProduct_zero, zero_add]

/-! ## Total derivatives -/

section Real
variable {ι ν π ζ : Type} [Fintype ι] [DecidableEq ι] [Fintype ν] [Fintype π] [Fintype ζ]

/-- The reported matrices are the derivatives of the residual at `(u,pg,z)`. -/
def Pde.IsDeriv (pde : Pde ℝ ι π ζ) (u : ι → ℝ) (pg : π → ℝ) (z : ζ → ℝ) : Prop :=
  ∀ (cu : ℝ → ι → ℝ) (cp : ℝ → π → ℝ) (cz : ℝ → ζ → ℝ) (du : ι → ℝ) (dp : π → ℝ) (dz : ζ → ℝ),
    cu 0 = u → cp 0 = pg → cz 0 = z → HasDerivAt cu du 0 → HasDerivAt cp dp 0 →
    HasDerivAt cz dz 0 →
    HasDerivAt (fun s => pde.value (cu s) (cp s) (cz s))
      (pde.gradU u pg z *ᵥ du + (pde.gradNT u pg z)ᵀ *ᵥ dp + (pde.gradZ u pg z)ᵀ *ᵥ dz) 0

/-- The reported vectors are the derivatives of the criterion `f`, which depends on the first `N`
steps, at `(h,z)`. -/
def Criterion.IsDeriv (F : Criterion ℝ ι ζ) (N : Nat) (f : (Nat → ι → ℝ) → (ζ → ℝ) → ℝ)
    (h : Nat → ι → ℝ) (z : ζ → ℝ) : Prop :=
  ∀ (ch : ℝ → Nat → ι → ℝ) (cz : ℝ → ζ → ℝ) (dh : Nat → ι → ℝ) (dz : ζ → ℝ), ch 0 = h → cz 0 = z →
    (∀ k, k < N → HasDerivAt (fun s => ch s k) (dh k) 0) → HasDerivAt cz dz 0 →
    HasDerivAt (fun s => f (ch s) (cz s))
      (∑ k ∈ range N, F.gradU h z k ⬝ᵥ dh k + F.gradZ h z ⬝ᵥ dz) 0

omit [Fintype ι] [DecidableEq ι] [Fintype ζ] in
theorem Problem.lumped_fixed {P : Problem ℝ ι ν π ζ} {M : Matrix π π ℝ} {B : Matrix ν π ℝ}
    (hp : P.proj.Fixed M B) (z : ζ → ℝ) (u : ι → ℝ) : P.lumped z u =
      fun i => 1 / rowSum M i * -(Bᵀ *ᵥ fun v => u (P.pick v)) i := by
  funext i
  simp [Problem.lumped, hp.gradU, hp.value, rowSummed]

/-- **C101** (gradient): along every differentiable family of histories whose steps solve the
coupled system (equilibrium with the lumped projection of the own pressures) the derivative of the
criterion is the reported gradient applied to the design direction, if the projection does not
depend on the design.  Missing: projections that depend on the design, see `C101_sign_false` and
`C101_argument_false`; and the computed states, which do not solve the coupled system, see
`C101_derivative_false`. -/
theorem C101_total_derivative_partial (P : Problem ℝ ι ν π ζ) (F : Criterion ℝ ι ζ)
    (f : (Nat → ι → ℝ) → (ζ → ℝ) → ℝ) (M : Matrix π π ℝ) (B : Matrix ν π ℝ) (z dz : ζ → ℝ)
    (h : ℝ → Nat → ι → ℝ) (t : Nat → ι → ℝ) (st : St ℝ ι ν π)
    (hs : P.solve.Exact) (hp : P.proj.Fixed M B) (hN : 1 ≤ P.numSteps)
    (hT : ∀ u pg, P.pde.gradUT u pg z = (P.pde.gradU u pg z)ᵀ)
    (hdet : ∀ k, 1 ≤ k → k < P.numSteps → (conMat P.con (P.condensed M B z (h 0 k))).det ≠ 0)
    (hd : ∀ k, k < P.numSteps → HasDerivAt (fun s => h s k) (t k) 0) (h0 : ∀ s, h s 0 = h 0 0)
    (hc : ∀ᶠ s in 𝓝 (0 : ℝ), ∀ k, 1 ≤ k → k < P.numSteps →
      Equil P.pde P.con (line z dz s) (h s k) (P.lumped (line z dz s) (h s k)))
    (hpde : ∀ k, 1 ≤ k → k < P.numSteps → P.pde.IsDeriv (h 0 k) (P.lumped z (h 0 k)) z)
    (hF : F.IsDeriv P.numSteps f (h 0) z) :
    HasDerivAt (fun s => f (h s) (line z dz s))
      ((P.criterionGradient F z (h 0) st).2 ⬝ᵥ dz) 0 := by
  have ht0 : t 0 = 0 := by
    have h1 := hd 0 (by omega)
    have h2 : (fun s => h s 0) = fun _ => h 0 0 := funext h0
    rw [h2] at h1
    exact h1.unique (hasDerivAt_const _ _)
  have hq : ∀ k, k < P.numSteps → HasDerivAt (fun s => P.lumped (line z dz s) (h s k))
      (fun i => 1 / rowSum M i * -(Bᵀ *ᵥ fun v => t k (P.pick v)) i) 0 := by
    intro k hk
    simp only [Problem.lumped_fixed hp]
    refine hasDerivAt_pi.2 fun i => ?_
    refine HasDerivAt.const_mul _ (HasDerivAt.neg ?_)
    simp only [mulVec, dotProduct]
    refine HasDerivAt.fun_sum fun v _ => ?_
    exact ((hasDerivAt_pi.1 (hd k hk)) (P.pick v)).const_mul _
  rw [C101_gradient_partial P F M B z dz (h 0) t
    (fun k i => 1 / rowSum M i * -(Bᵀ *ᵥ fun v => t k (P.pick v)) i) st hs hp hN hT
    (fun k h1 h2 => isUnit_det_iff.2 (hdet k h1 h2))]
  · exact hF h (line z dz) t dz rfl (line_zero z dz) hd (hasDerivAt_line z dz)
  · refine ⟨ht0, ?_, ?_, ?_⟩
    · intro k h1 h2 i v hi
      have e1 : HasDerivAt (fun s => h s k i) (t k i) 0 := (hasDerivAt_pi.1 (hd k h2)) i
      have e2 : (fun s => h s k i) =ᶠ[𝓝 0] fun _ => v :=
        hc.mono fun s e => (e k h1 h2).prescribed i v hi
      exact (e1.congr_of_eventuallyEq e2.symm).unique (hasDerivAt_const _ _)
    · intro k h1 h2 i hi
      have e1 := (hasDerivAt_pi.1 (hpde k h1 h2 (fun s => h s k)
        (fun s => P.lumped (line z dz s) (h s k)) (line z dz) (t k) _ dz rfl
        (by rw [line_zero]) (line_zero z dz) (hd k h2) (hq k h2) (hasDerivAt_line z dz))) i
      have e2 : (fun s => P.pde.value (h s k) (P.lumped (line z dz s) (h s k)) (line z dz s) i)
          =ᶠ[𝓝 0] fun _ => 0 := hc.mono fun s e => (e k h1 h2).free i hi
      exact (e1.congr_of_eventuallyEq e2.symm).unique (hasDerivAt_const _ _)
    · intro k h1 h2 i
      have := hp.rows i
      field_simp
      ring

end Real

end Plato.Vms
