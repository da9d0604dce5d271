import Verif.Time.TotalDeriv

/-!
# Adjoint gradient of the hyperbolic problem is the total derivative (C30)
-/

namespace Plato

open Matrix Finset Filter Topology

variable {ι ζ : Type} [Fintype ι] [DecidableEq ι] [Fintype ζ]

/-- The reported matrices are the derivatives of the residual at `(u,v,a,z)` and time `t`. -/
def HypPde.IsDeriv (pde : HypPde ℝ ι ζ) (u v a : ι → ℝ) (z : ζ → ℝ) (t : ℝ) : Prop :=
  ∀ (cu cv ca : ℝ → ι → ℝ) (cz : ℝ → ζ → ℝ) (du dv da : ι → ℝ) (dz : ζ → ℝ), cu 0 = u → cv 0 = v →
    ca 0 = a → cz 0 = z → HasDerivAt cu du 0 → HasDerivAt cv dv 0 → HasDerivAt ca da 0 →
    HasDerivAt cz dz 0 →
    HasDerivAt (fun s => pde.value (cu s) (cv s) (ca s) (cz s) t)
      (pde.gradU u v a z t *ᵥ du + pde.gradV u v a z t *ᵥ dv + pde.gradA u v a z t *ᵥ da +
        (pde.gradZ u v a z t)ᵀ *ᵥ dz) 0

/-- The reported vectors are the derivatives of the criterion `f`, which depends on the steps
`0 .. N-1` of the history. -/
def HypCriterion.IsDeriv (F : HypCriterion ℝ ι ζ) (N : Nat) (f : HypHist ℝ ι → (ζ → ℝ) → ℝ)
    (h : HypHist ℝ ι) (z : ζ → ℝ) : Prop :=
  ∀ (ch : ℝ → HypHist ℝ ι) (cz : ℝ → ζ → ℝ) (t : HypHist ℝ ι) (dz : ζ → ℝ), ch 0 = h → cz 0 = z →
    (∀ k, k < N → HasDerivAt (fun s => (ch s).U k) (t.U k) 0) →
    (∀ k, k < N → HasDerivAt (fun s => (ch s).V k) (t.V k) 0) →
    (∀ k, k < N → HasDerivAt (fun s => (ch s).A k) (t.A k) 0) → HasDerivAt cz dz 0 →
    HasDerivAt (fun s => f (ch s) (cz s)) (F.along N h t z dz) 0

namespace HypPde
variable {pde : HypPde ℝ ι ζ}

omit [Fintype ζ] in
theorem AffineAt.entryU {z : ζ → ℝ} {t : ℝ} (h : pde.AffineAt z t) (u v a : ι → ℝ) (i j : ι) :
    pde.gradU u v a z t i j = pde.value (Pi.single j 1) 0 0 z t i - pde.value 0 0 0 z t i := by
  have h1 := congrFun (h u v a (Pi.single j 1 - u) (-v) (-a)) i
  have h2 := congrFun (h u v a (-u) (-v) (-a)) i
  simp only [add_sub_cancel, add_neg_cancel, Pi.add_apply, mulVec_sub, mulVec_neg, Pi.sub_apply,
    Pi.neg_apply, mulVec_single_one, col_apply] at h1 h2
  rw [h1, h2]; ring

omit [Fintype ζ] in
theorem AffineAt.entryV {z : ζ → ℝ} {t : ℝ} (h : pde.AffineAt z t) (u v a : ι → ℝ) (i j : ι) :
    pde.gradV u v a z t i j = pde.value 0 (Pi.single j 1) 0 z t i - pde.value 0 0 0 z t i := by
  have h1 := congrFun (h u v a (-u) (Pi.single j 1 - v) (-a)) i
  have h2 := congrFun (h u v a (-u) (-v) (-a)) i
  simp only [add_sub_cancel, add_neg_cancel, Pi.add_apply, mulVec_sub, mulVec_neg, Pi.sub_apply,
    Pi.neg_apply, mulVec_single_one, col_apply] at h1 h2
  rw [h1, h2]; ring

omit [Fintype ζ] in
theorem AffineAt.entryA {z : ζ → ℝ} {t : ℝ} (h : pde.AffineAt z t) (u v a : ι → ℝ) (i j : ι) :
    pde.gradA u v a z t i j = pde.value 0 0 (Pi.single j 1) z t i - pde.value 0 0 0 z t i := by
  have h1 := congrFun (h u v a (-u) (-v) (Pi.single j 1 - a)) i
  have h2 := congrFun (h u v a (-u) (-v) (-a)) i
  simp only [add_sub_cancel, add_neg_cancel, Pi.add_apply, mulVec_sub, mulVec_neg, Pi.sub_apply,
    Pi.neg_apply, mulVec_single_one, col_apply] at h1 h2
  rw [h1, h2]; ring

omit [DecidableEq ι] in
theorem IsDeriv.value_along {u v a : ι → ℝ} {z : ζ → ℝ} {t : ℝ} (h : pde.IsDeriv u v a z t)
    (dz : ζ → ℝ) (i : ι) : DifferentiableAt ℝ (fun s => pde.value u v a (line z dz s) t i) 0 :=
  ((hasDerivAt_pi.1 (h (fun _ => u) (fun _ => v) (fun _ => a) (line z dz) 0 0 0 dz rfl rfl rfl
    (line_zero z dz) (hasDerivAt_const _ _) (hasDerivAt_const _ _) (hasDerivAt_const _ _)
    (hasDerivAt_line z dz))) i).differentiableAt

end HypPde

/-- **C30**, hyperbolic problem, along any differentiable family of histories that solves the
discrete (possibly nonlinear) equations: the reported gradient applied to the design direction is
the derivative of the criterion.  Missing with respect to the full claim: nonzero prescribed values
and time dependent or unsymmetric derivative matrices, for which the claim is false. -/
theorem C30_hyperbolic_total_derivative_partial (P : HypProblem ℝ ι ζ) (F : HypCriterion ℝ ι ζ)
    (f : HypHist ℝ ι → (ζ → ℝ) → ℝ) (z dz : ζ → ℝ) (h : ℝ → HypHist ℝ ι) (t : HypHist ℝ ι)
    (st : HypState ℝ ι) (hst : st.hist = h 0) (hb : P.integ.beta ≠ 0) (hdt : P.dt ≠ 0)
    (hN : 1 ≤ P.numSteps) (hs : P.solve.Exact) (hr : P.AdjointReady z st.con (h 0))
    (hU : ∀ k, k < P.numSteps → HasDerivAt (fun s => (h s).U k) (t.U k) 0)
    (hV : ∀ k, k < P.numSteps → HasDerivAt (fun s => (h s).V k) (t.V k) 0)
    (hA : ∀ k, k < P.numSteps → HasDerivAt (fun s => (h s).A k) (t.A k) 0)
    (hinit : ∀ s, (h s).U 0 = (h 0).U 0 ∧ (h s).V 0 = (h 0).V 0 ∧ (h s).A 0 = (h 0).A 0)
    (hcon : ∀ k, 1 ≤ k → k < P.numSteps → ∀ᶠ s in 𝓝 (0 : ℝ), ∀ i v, st.con i = some v →
      (h s).U k i = (h 0).U k i)
    (hrel : ∀ s k, 1 ≤ k → k < P.numSteps → NewmarkRel P.integ.gamma P.integ.beta P.dt ((h s).U k)
      ((h s).U (k - 1)) ((h s).V k) ((h s).V (k - 1)) ((h s).A k) ((h s).A (k - 1)))
    (hfree : ∀ k : Nat, 1 ≤ k → k < P.numSteps → ∀ᶠ s in 𝓝 (0 : ℝ), ∀ i, st.con i = none →
      P.pde.value ((h s).U k) ((h s).V k) ((h s).A k) (line z dz s) (k * P.dt) i = 0)
    (hpde : ∀ k : Nat, k < P.numSteps →
      P.pde.IsDeriv ((h 0).U k) ((h 0).V k) ((h 0).A k) z (k * P.dt))
    (hF : F.IsDeriv P.numSteps f (h 0) z) :
    HasDerivAt (fun s => f (h s) (line z dz s)) ((P.criterionGradient F z st).2 ⬝ᵥ dz) 0 := by
  have ht : HypTangent P z dz st.con (h 0) t := by
    constructor
    · refine ⟨?_, ?_, ?_⟩
      · have : (fun s => (h s).U 0) = fun _ => (h 0).U 0 := funext fun s => (hinit s).1
        have h1 := hU 0 (by omega)
        rw [this] at h1
        exact h1.unique (hasDerivAt_const _ _)
      · have : (fun s => (h s).V 0) = fun _ => (h 0).V 0 := funext fun s => (hinit s).2.1
        have h1 := hV 0 (by omega)
        rw [this] at h1
        exact h1.unique (hasDerivAt_const _ _)
      · have : (fun s => (h s).A 0) = fun _ => (h 0).A 0 := funext fun s => (hinit s).2.2
        have h1 := hA 0 (by omega)
        rw [this] at h1
        exact h1.unique (hasDerivAt_const _ _)
    · intro k hk1 hk i v hi
      have h1 := (hasDerivAt_pi.1 (hU k hk)) i
      have h2 : (fun s => (h s).U k i) =ᶠ[𝓝 0] fun _ => (h 0).U k i :=
        (hcon k hk1 hk).mono fun s hs => hs i v hi
      exact (h1.congr_of_eventuallyEq h2.symm).unique (hasDerivAt_const _ _)
    · intro k hk1 hk
      have h1 := fun i => (hasDerivAt_pi.1 (hU k hk)) i
      have h2 := fun i => (hasDerivAt_pi.1 (hU (k - 1) (by omega))) i
      have h3 := fun i => (hasDerivAt_pi.1 (hV k hk)) i
      have h4 := fun i => (hasDerivAt_pi.1 (hV (k - 1) (by omega))) i
      have h5 := fun i => (hasDerivAt_pi.1 (hA k hk)) i
      have h6 := fun i => (hasDerivAt_pi.1 (hA (k - 1) (by omega))) i
      constructor
      · intro i
        have h7 := (h4 i).add ((((h6 i).const_mul (1 - P.integ.gamma)).add
          ((h5 i).const_mul P.integ.gamma)).const_mul P.dt)
        refine (h3 i).unique (h7.congr_of_eventuallyEq (Eventually.of_forall fun s => ?_))
        exact (hrel s k hk1 hk).vel i
      · intro i
        have h7 := ((h2 i).add ((h4 i).const_mul P.dt)).add
          ((((h6 i).const_mul (1 - 2 * P.integ.beta)).add
          ((h5 i).const_mul (2 * P.integ.beta))).const_mul (P.dt ^ 2 / 2))
        refine (h1 i).unique (h7.congr_of_eventuallyEq (Eventually.of_forall fun s => ?_))
        exact (hrel s k hk1 hk).disp i
    · intro k hk1 hk i hi
      have h1 := (hasDerivAt_pi.1 (hpde k hk (fun s => (h s).U k) (fun s => (h s).V k)
        (fun s => (h s).A k) (line z dz) (t.U k) (t.V k) (t.A k) dz rfl rfl rfl (line_zero z dz)
        (hU k hk) (hV k hk) (hA k hk) (hasDerivAt_line z dz))) i
      have h2 : (fun s => P.pde.value ((h s).U k) ((h s).V k) ((h s).A k) (line z dz s)
          (k * P.dt) i) =ᶠ[𝓝 0] fun _ => 0 := (hfree k hk1 hk).mono fun s hs => hs i hi
      exact (h1.congr_of_eventuallyEq h2.symm).unique (hasDerivAt_const _ _)
  rw [C30_hyperbolic_partial P F z dz st hb hdt two_ne_zero hN hs (hst ▸ hr) (t := t)
    (by rw [hst]; exact ht), hst]
  exact hF h (line z dz) t dz rfl (line_zero z dz) hU hV hA (hasDerivAt_line z dz)

/-- **C30**, hyperbolic problem, end to end for a linear symmetric problem with zero prescribed
values on a fixed set of degrees of freedom and derivative matrices that do not depend on time
(the load may): `criterionGradient` after `solution` is the derivative of
`control ↦ criterion(solution(control), control)` for every number of steps, whatever was stored
before. -/
theorem C30_hyperbolic_linear_problem_partial (P : HypProblem ℝ ι ζ) (F : HypCriterion ℝ ι ζ)
    (f : HypHist ℝ ι → (ζ → ℝ) → ℝ) (z dz : ζ → ℝ) (c : Dirichlet ℝ ι) (s0 : HypState ℝ ι)
    (hb : P.integ.beta ≠ 0) (hdt : P.dt ≠ 0) (hN : 2 ≤ P.numSteps) (hs : P.solve.Exact)
    (hbc : ∀ t, P.bc t = c) (hz : ∀ i v, c i = some v → v = 0)
    (haff : ∀ z t, P.pde.AffineAt z t)
    (hsymU : ∀ u v a z t i j, P.pde.gradU u v a z t i j = P.pde.gradU u v a z t j i)
    (hsymV : ∀ u v a z t i j, P.pde.gradV u v a z t i j = P.pde.gradV u v a z t j i)
    (hsymA : ∀ u v a z t i j, P.pde.gradA u v a z t i j = P.pde.gradA u v a z t j i)
    (htU : ∀ u v a z t t', P.pde.gradU u v a z t = P.pde.gradU u v a z t')
    (htV : ∀ u v a z t t', P.pde.gradV u v a z t = P.pde.gradV u v a z t')
    (htA : ∀ u v a z t t', P.pde.gradA u v a z t = P.pde.gradA u v a z t')
    (htZ : ∀ u v a z t t', P.pde.gradZ u v a z t = P.pde.gradZ u v a z t')
    (hdet : (conMat c (P.sysMat 0 0 0 z 0)).det ≠ 0)
    (hpde : ∀ u v a t, P.pde.IsDeriv u v a z t) (hF : ∀ h, F.IsDeriv P.numSteps f h z) :
    HasDerivAt (fun s => f (P.solution (line z dz s) s0).hist (line z dz s))
      ((P.criterionGradient F z (P.solution z s0)).2 ⬝ᵥ dz) 0 := by
  have hJU : ∀ t i j, DifferentiableAt ℝ (fun s => P.pde.gradU 0 0 0 (line z dz s) t i j) 0 := by
    intro t i j
    simp only [(haff _ t).entryU]
    exact ((hpde _ _ _ t).value_along dz i).sub ((hpde 0 0 0 t).value_along dz i)
  have hJV : ∀ t i j, DifferentiableAt ℝ (fun s => P.pde.gradV 0 0 0 (line z dz s) t i j) 0 := by
    intro t i j
    simp only [(haff _ t).entryV]
    exact ((hpde _ _ _ t).value_along dz i).sub ((hpde 0 0 0 t).value_along dz i)
  have hJA : ∀ t i j, DifferentiableAt ℝ (fun s => P.pde.gradA 0 0 0 (line z dz s) t i j) 0 := by
    intro t i j
    simp only [(haff _ t).entryA]
    exact ((hpde _ _ _ t).value_along dz i).sub ((hpde 0 0 0 t).value_along dz i)
  have cS : ∀ u v a z t, P.sysMat u v a z t = P.sysMat 0 0 0 z 0 := by
    intro u v a z t
    have e1 : P.pde.gradU u v a z t = P.pde.gradU 0 0 0 z t := by
      ext i j; rw [(haff z t).entryU, (haff z t).entryU]
    have e2 : P.pde.gradV u v a z t = P.pde.gradV 0 0 0 z t := by
      ext i j; rw [(haff z t).entryV, (haff z t).entryV]
    have e3 : P.pde.gradA u v a z t = P.pde.gradA 0 0 0 z t := by
      ext i j; rw [(haff z t).entryA, (haff z t).entryA]
    unfold HypProblem.sysMat
    rw [e1, e2, e3, htU 0 0 0 z t 0, htV 0 0 0 z t 0, htA 0 0 0 z t 0]
  have hJS : ∀ i j, DifferentiableAt ℝ (fun s => P.sysMat 0 0 0 (line z dz s) 0 i j) 0 := by
    intro i j
    simp only [HypProblem.sysMat, Matrix.add_apply, Matrix.smul_apply, smul_eq_mul]
    exact ((hJU 0 i j).add ((hJV 0 i j).const_mul _)).add ((hJA 0 i j).const_mul _)
  have hC := fun i j => differentiableAt_conMat (c := c) hJS i j
  have hd0 : (conMat c (P.sysMat 0 0 0 (line z dz 0) 0)).det ≠ 0 := by simpa using hdet
  have hne : ∀ᶠ s in 𝓝 (0 : ℝ), (conMat c (P.sysMat 0 0 0 (line z dz s) 0)).det ≠ 0 :=
    (differentiableAt_det hC).continuousAt.eventually_ne hd0
  have hstep : ∀ (z : ζ → ℝ) (m lo : Nat) (h : HypState ℝ ι),
      loopUp (P.forwardStep z) (m + 1) lo h =
        P.forwardStep z (lo + m) (loopUp (P.forwardStep z) m lo h) := by
    intro z m
    induction m with
    | zero => intro lo h; rfl
    | succ m ihm =>
      intro lo h
      rw [loopUp, ihm, loopUp, Nat.add_assoc, Nat.add_comm 1 m]
  -- differentiability step by step
  set i0 : HypState ℝ ι := { s0 with
      hist := ⟨setStep (fun _ => 0) 0 P.initU, setStep (fun _ => 0) 0 P.initV,
        setStep (fun _ => 0) 0 P.initA⟩
      time := 0 } with hi0
  have key : ∀ n, ∃ g : ℝ → HypState ℝ ι,
      (∀ s, g s = loopUp (P.forwardStep (line z dz s)) n 1 i0) ∧
      (∀ k i, DifferentiableAt ℝ (fun s => (g s).hist.U k i) 0) ∧
      (∀ k i, DifferentiableAt ℝ (fun s => (g s).hist.V k i) 0) ∧
      (∀ k i, DifferentiableAt ℝ (fun s => (g s).hist.A k i) 0) ∧
      (∀ s k, n < k → (g s).hist.U k = 0 ∧ (g s).hist.V k = 0 ∧ (g s).hist.A k = 0) ∧
      (∀ s, (g s).time = n * P.dt) ∧ (1 ≤ n → ∀ s, (g s).con = c) := by
    intro n
    induction n with
    | zero =>
      refine ⟨fun _ => i0, fun s => rfl, fun k i => differentiableAt_const _,
        fun k i => differentiableAt_const _, fun k i => differentiableAt_const _, ?_, ?_, by omega⟩
      · intro s k hk
        have : k ≠ 0 := by omega
        simp [hi0, setStep, this]
      · intro s; simp [hi0]
    | succ n ih =>
      obtain ⟨g, hg, gU, gV, gA, gz, gt, -⟩ := ih
      -- the increment
      let inc : ℝ → ι → ℝ := fun s => P.solve
        (conMat c (P.sysMat 0 0 0 (line z dz s) 0)) 0
        (conRhs 1 c (P.sysMat 0 0 0 (line z dz s) 0)
          (-P.pde.value 0 0 0 (line z dz s) (n * P.dt + P.dt) +
            P.pde.gradV 0 0 0 (line z dz s) (n * P.dt + P.dt) *ᵥ
              P.integ.vValue 0 ((g s).hist.U n) 0 ((g s).hist.V n) 0 ((g s).hist.A n) P.dt +
            P.pde.gradA 0 0 0 (line z dz s) (n * P.dt + P.dt) *ᵥ
              P.integ.aValue 0 ((g s).hist.U n) 0 ((g s).hist.V n) 0 ((g s).hist.A n) P.dt))
      have hv : ∀ i, DifferentiableAt ℝ (fun s => P.integ.vValue 0 ((g s).hist.U n) 0
          ((g s).hist.V n) 0 ((g s).hist.A n) P.dt i) 0 := by
        intro i
        simp only [Newmark.vValue]
        exact ((differentiableAt_const _).sub ((gV n i).add ((gA n i).const_mul _))).sub
          (((differentiableAt_const _).sub (((gU n i).add ((gV n i).const_mul _)).add
            ((gA n i).const_mul _))).const_mul _)
      have ha : ∀ i, DifferentiableAt ℝ (fun s => P.integ.aValue 0 ((g s).hist.U n) 0
          ((g s).hist.V n) 0 ((g s).hist.A n) P.dt i) 0 := by
        intro i
        simp only [Newmark.aValue]
        exact (differentiableAt_const _).sub
          (((differentiableAt_const _).sub (((gU n i).add ((gV n i).const_mul _)).add
            ((gA n i).const_mul _))).const_mul _)
      have hinc : ∀ i, DifferentiableAt ℝ (fun s => inc s i) 0 := by
        intro i
        refine differentiableAt_solution hC (b := fun s => conRhs 1 c
          (P.sysMat 0 0 0 (line z dz s) 0)
          (-P.pde.value 0 0 0 (line z dz s) (n * P.dt + P.dt) +
            P.pde.gradV 0 0 0 (line z dz s) (n * P.dt + P.dt) *ᵥ
              P.integ.vValue 0 ((g s).hist.U n) 0 ((g s).hist.V n) 0 ((g s).hist.A n) P.dt +
            P.pde.gradA 0 0 0 (line z dz s) (n * P.dt + P.dt) *ᵥ
              P.integ.aValue 0 ((g s).hist.U n) 0 ((g s).hist.V n) 0 ((g s).hist.A n) P.dt))
          ?_ hd0 ?_ i
        · refine fun i => differentiableAt_conRhs hJS (fun i => ?_) i
          exact (((hpde _ _ _ _).value_along dz i).neg.add (differentiableAt_mulVec (hJV _) hv i)).add
            (differentiableAt_mulVec (hJA _) ha i)
        · filter_upwards [hne] with s hs'
          exact hs _ _ _ (isUnit_det_iff.2 hs')
      have hnew : ∀ s, (P.forwardStep (line z dz s) (n + 1) (g s)).hist.U (n + 1) = inc s ∧
          (P.forwardStep (line z dz s) (n + 1) (g s)).hist.V (n + 1) =
            -(P.integ.vValue 0 ((g s).hist.U n) 0 ((g s).hist.V n) 0 ((g s).hist.A n) P.dt +
              P.integ.vGradU P.dt • inc s) ∧
          (P.forwardStep (line z dz s) (n + 1) (g s)).hist.A (n + 1) =
            -(P.integ.aValue 0 ((g s).hist.U n) 0 ((g s).hist.V n) 0 ((g s).hist.A n) P.dt +
              P.integ.aGradU P.dt • inc s) := by
        intro s
        obtain ⟨z1, z2, z3⟩ := gz s (n + 1) (by omega)
        simp only [HypProblem.forwardStep, setStep, Function.update_self, z1, z2, z3,
          HypProblem.sysMat_eq, cS, hbc, gt, Nat.add_sub_cancel, zero_add, zero_sub, inc]
        exact ⟨trivial, trivial, trivial⟩
      refine ⟨fun s => P.forwardStep (line z dz s) (n + 1) (g s), ?_, ?_, ?_, ?_, ?_, ?_, ?_⟩
      · intro s
        show P.forwardStep (line z dz s) (n + 1) (g s) = _
        rw [hstep, hg, Nat.add_comm 1 n]
      · intro k i
        by_cases hk : k = n + 1
        · subst hk
          simp only [(hnew _).1]
          exact hinc i
        · simp only [(HypProblem.forwardStep_other hk).1]
          exact gU k i
      · intro k i
        by_cases hk : k = n + 1
        · subst hk
          simp only [(hnew _).2.1]
          exact ((hv i).add ((hinc i).const_mul _)).neg
        · simp only [(HypProblem.forwardStep_other hk).2.1]
          exact gV k i
      · intro k i
        by_cases hk : k = n + 1
        · subst hk
          simp only [(hnew _).2.2]
          exact ((ha i).add ((hinc i).const_mul _)).neg
        · simp only [(HypProblem.forwardStep_other hk).2.2]
          exact gA k i
      · intro s k hk
        obtain ⟨o1, o2, o3⟩ := HypProblem.forwardStep_other (P := P) (z := line z dz s) (s := g s)
          (show k ≠ n + 1 by omega)
        show (P.forwardStep _ _ _).hist.U k = 0 ∧ (P.forwardStep _ _ _).hist.V k = 0 ∧
          (P.forwardStep _ _ _).hist.A k = 0
        rw [o1, o2, o3]; exact gz s k (by omega)
      · intro s
        show (g s).time + P.dt = _
        rw [gt]; push_cast; ring
      · intro _ s
        exact hbc _
  obtain ⟨g, hg, gU, gV, gA, -, -, gcon⟩ := key (P.numSteps - 1)
  have hgs : ∀ s, g s = P.solution (line z dz s) s0 := hg
  have hg0 : g 0 = P.solution z s0 := by rw [hgs, line_zero]
  have hok : ∀ᶠ s in 𝓝 (0 : ℝ), ∀ k : Nat, 1 ≤ k → k < P.numSteps → P.StepOk (line z dz s)
      (k * P.dt) ((g s).hist.U k) ((g s).hist.V k) ((g s).hist.A k) := by
    filter_upwards [hne] with s hs'
    have := HypProblem.C29_equation_of_motion P (line z dz s) s0 hs (haff _)
      (fun k i j => by
        simp only [HypProblem.sysMat, Matrix.add_apply, Matrix.smul_apply]
        rw [hsymU, hsymV, hsymA])
      (fun k _ _ => by rw [cS, hbc]; exact isUnit_det_iff.2 hs')
    rw [hgs]; exact this
  have c0 : (g 0).con = c := gcon (by omega) 0
  have := C30_hyperbolic_total_derivative_partial P F f z dz (fun s => (g s).hist)
    ⟨fun k => deriv (fun s => (g s).hist.U k) 0, fun k => deriv (fun s => (g s).hist.V k) 0,
      fun k => deriv (fun s => (g s).hist.A k) 0⟩ (g 0) rfl hb hdt (by omega) hs
    ⟨fun k t i j => hsymU _ _ _ _ _ i j, fun k t i j => hsymV _ _ _ _ _ i j,
      fun k t i j => hsymA _ _ _ _ _ i j, fun k t t' => htU _ _ _ _ t t',
      fun k t t' => htV _ _ _ _ t t', fun k t t' => htA _ _ _ _ t t', fun k t t' => htZ _ _ _ _ t t',
      fun k t _ _ => by rw [cS, c0]; exact isUnit_det_iff.2 hdet, by rw [c0]; exact hz⟩
    (fun k _ => (differentiableAt_pi.2 (gU k)).hasDerivAt)
    (fun k _ => (differentiableAt_pi.2 (gV k)).hasDerivAt)
    (fun k _ => (differentiableAt_pi.2 (gA k)).hasDerivAt)
    (fun s => by
      show (g s).hist.U 0 = (g 0).hist.U 0 ∧ (g s).hist.V 0 = (g 0).hist.V 0 ∧
        (g s).hist.A 0 = (g 0).hist.A 0
      rw [hgs s, hg0]
      have h1 := (HypProblem.C29_newmark P (line z dz s) s0 hb hdt two_ne_zero).1
      have h2 := (HypProblem.C29_newmark P z s0 hb hdt two_ne_zero).1
      exact ⟨h1.1.trans h2.1.symm, h1.2.1.trans h2.2.1.symm, h1.2.2.trans h2.2.2.symm⟩)
    (fun k hk1 hk => by
      have e0 := hok.self_of_nhds
      filter_upwards [hok] with s hs' i v hi
      rw [c0] at hi
      rw [(hs' k hk1 hk).prescribed i v (by rw [hbc]; exact hi),
        (e0 k hk1 hk).prescribed i v (by rw [hbc]; exact hi)])
    (fun s k hk1 hk => by
      show NewmarkRel _ _ _ ((g s).hist.U k) _ _ _ _ _
      rw [hgs s]
      exact (HypProblem.C29_newmark P (line z dz s) s0 hb hdt two_ne_zero).2 k hk1 hk)
    (fun k hk1 hk => hok.mono fun s h i hi =>
      (h k hk1 hk).motion i (by rw [hbc, ← c0]; exact hi))
    (fun k _ => hpde _ _ _ _) (hF _)
  rw [hg0] at this
  refine this.congr_of_eventuallyEq (Eventually.of_forall fun s => ?_)
  show f (P.solution (line z dz s) s0).hist (line z dz s) = f (g s).hist (line z dz s)
  rw [hgs]

end Plato
