import Verif.Time.TotalDeriv

/-!
# Adjoint gradient of the parabolic problem is the total derivative (C30)
-/

namespace Plato

open Matrix Finset Filter Topology

variable {ι ζ : Type} [Fintype ι] [DecidableEq ι] [Fintype ζ]

/-- The reported matrices are the derivatives of the residual at `(u,v,z)`. -/
def ParPde.IsDeriv (pde : ParPde ℝ ι ζ) (u v : ι → ℝ) (z : ζ → ℝ) : Prop :=
  ∀ (cu cv : ℝ → ι → ℝ) (cz : ℝ → ζ → ℝ) (du dv : ι → ℝ) (dz : ζ → ℝ), cu 0 = u → cv 0 = v →
    cz 0 = z → HasDerivAt cu du 0 → HasDerivAt cv dv 0 → HasDerivAt cz dz 0 →
    HasDerivAt (fun s => pde.value (cu s) (cv s) (cz s))
      (pde.gradU u v z *ᵥ du + pde.gradV u v z *ᵥ dv + (pde.gradZ u v z)ᵀ *ᵥ dz) 0

/-- The reported vectors are the derivatives of the criterion `f`, which depends on the steps
`0 .. N-1` of the history. -/
def ParCriterion.IsDeriv (F : ParCriterion ℝ ι ζ) (N : Nat) (f : ParHist ℝ ι → (ζ → ℝ) → ℝ)
    (h : ParHist ℝ ι) (z : ζ → ℝ) : Prop :=
  ∀ (ch : ℝ → ParHist ℝ ι) (cz : ℝ → ζ → ℝ) (t : ParHist ℝ ι) (dz : ζ → ℝ), ch 0 = h → cz 0 = z →
    (∀ k, k < N → HasDerivAt (fun s => (ch s).U k) (t.U k) 0) →
    (∀ k, k < N → HasDerivAt (fun s => (ch s).V k) (t.V k) 0) → HasDerivAt cz dz 0 →
    HasDerivAt (fun s => f (ch s) (cz s)) (F.along N h t z dz) 0

/-- The residual is affine in state and rate. -/
def ParPde.Affine (pde : ParPde ℝ ι ζ) : Prop :=
  ∀ u v du dv z, pde.value (u + du) (v + dv) z =
    pde.value u v z + pde.gradU u v z *ᵥ du + pde.gradV u v z *ᵥ dv

namespace ParPde
variable {pde : ParPde ℝ ι ζ}

omit [Fintype ζ] in
theorem Affine.entryU (h : pde.Affine) (u v : ι → ℝ) (z : ζ → ℝ) (i j : ι) :
    pde.gradU u v z i j = pde.value (Pi.single j 1) 0 z i - pde.value 0 0 z i := by
  have h1 := congrFun (h u v (Pi.single j 1 - u) (-v) z) i
  have h2 := congrFun (h u v (-u) (-v) z) i
  simp only [add_sub_cancel, add_neg_cancel, Pi.add_apply, mulVec_sub, mulVec_neg, Pi.sub_apply,
    Pi.neg_apply, mulVec_single_one, col_apply] at h1 h2
  rw [h1, h2]; ring

omit [Fintype ζ] in
theorem Affine.entryV (h : pde.Affine) (u v : ι → ℝ) (z : ζ → ℝ) (i j : ι) :
    pde.gradV u v z i j = pde.value 0 (Pi.single j 1) z i - pde.value 0 0 z i := by
  have h1 := congrFun (h u v (-u) (Pi.single j 1 - v) z) i
  have h2 := congrFun (h u v (-u) (-v) z) i
  simp only [add_sub_cancel, add_neg_cancel, Pi.add_apply, mulVec_sub, mulVec_neg, Pi.sub_apply,
    Pi.neg_apply, mulVec_single_one, col_apply] at h1 h2
  rw [h1, h2]; ring

theorem IsDeriv.value_along {u v : ι → ℝ} {z : ζ → ℝ} (h : pde.IsDeriv u v z) (dz : ζ → ℝ)
    (i : ι) : DifferentiableAt ℝ (fun s => pde.value u v (line z dz s) i) 0 :=
  ((hasDerivAt_pi.1 (h (fun _ => u) (fun _ => v) (line z dz) 0 0 dz rfl rfl (line_zero z dz)
    (hasDerivAt_const _ _) (hasDerivAt_const _ _) (hasDerivAt_line z dz))) i).differentiableAt

end ParPde

namespace ParProblem
variable {P : ParProblem ℝ ι ζ}

omit [Fintype ζ] in
/-- One time step with a single Newton iteration. -/
theorem forwardStep_one (hn : P.numNewton = 1) (z : ζ → ℝ) (k : Nat) (h : ParHist ℝ ι) :
    ∃ d : ι → ℝ,
      d = P.solve (conMat P.con (P.sysMat (h.U k) (h.V k) z)) 0
        (conRhs 1 P.con (P.sysMat (h.U k) (h.V k) z) (-P.pde.value (h.U k) (h.V k) z +
          P.pde.gradV (h.U k) (h.V k) z *ᵥ
            P.integ.vValue (h.U k) (h.U (k - 1)) (h.V k) (h.V (k - 1)) P.dt)) ∧
      (P.forwardStep z k h).U k = h.U k + d ∧
      (P.forwardStep z k h).V k = h.V k -
        (P.integ.vValue (h.U k) (h.U (k - 1)) (h.V k) (h.V (k - 1)) P.dt +
          P.integ.vGradU P.dt • d) := by
  refine ⟨_, rfl, ?_, ?_⟩ <;>
    simp [forwardStep, setStep, hn, newtonLoop, newtonPass, newtonScale, ← sysMat_eq]

/-- The free equations and the zero prescribed increment after a step of a linear problem. -/
theorem forwardStep_ok (hn : P.numNewton = 1) (hs : P.solve.Exact) (haff : P.pde.Affine)
    (hz : ∀ i v, P.con i = some v → v = 0) {z : ζ → ℝ} {k : Nat} {h : ParHist ℝ ι}
    (hdet : (conMat P.con (P.sysMat (h.U k) (h.V k) z)).det ≠ 0) :
    (∀ i v, P.con i = some v → (P.forwardStep z k h).U k i = h.U k i) ∧
    ∀ i, P.con i = none →
      P.pde.value ((P.forwardStep z k h).U k) ((P.forwardStep z k h).V k) z i = 0 := by
  obtain ⟨d, hd, hU, hV⟩ := forwardStep_one (P := P) hn z k h
  have hsol := hs _ 0 (conRhs 1 P.con (P.sysMat (h.U k) (h.V k) z) (-P.pde.value (h.U k) (h.V k) z +
    P.pde.gradV (h.U k) (h.V k) z *ᵥ
      P.integ.vValue (h.U k) (h.U (k - 1)) (h.V k) (h.V (k - 1)) P.dt)) (isUnit_det_iff.2 hdet)
  rw [← hd] at hsol
  obtain ⟨h1, h2⟩ := (conSys_zero (fun i v hi => by rw [hz i v hi, mul_zero])).1 hsol
  refine ⟨fun i v hi => by rw [hU, Pi.add_apply, h1 i v hi, add_zero], fun i hi => ?_⟩
  rw [hU, hV, sub_eq_add_neg, haff]
  have := h2 i hi
  rw [← sysMat_eq] at this
  simp only [Pi.add_apply, Pi.neg_apply, mulVec_neg, mulVec_add, mulVec_smul, add_mulVec,
    smul_mulVec, Pi.smul_apply, smul_eq_mul] at this ⊢
  linear_combination this

end ParProblem

/-- **C30**, parabolic problem, along any differentiable family of histories that solves the
discrete (possibly nonlinear) equations: the reported gradient applied to the design direction is
the derivative of the criterion.  Missing with respect to the full claim: nonzero prescribed values
and unsymmetric derivative matrices, for which the claim is false. -/
theorem C30_parabolic_total_derivative_partial (P : ParProblem ℝ ι ζ) (F : ParCriterion ℝ ι ζ)
    (f : ParHist ℝ ι → (ζ → ℝ) → ℝ) (z dz : ζ → ℝ) (h : ℝ → ParHist ℝ ι) (t : ParHist ℝ ι)
    (adj : (Nat → ι → ℝ) × (Nat → ι → ℝ)) (ha : P.integ.alpha ≠ 0) (hdt : P.dt ≠ 0)
    (hN : 1 ≤ P.numSteps) (hs : P.solve.Exact) (hr : P.AdjointReady z (h 0))
    (hU : ∀ k, k < P.numSteps → HasDerivAt (fun s => (h s).U k) (t.U k) 0)
    (hV : ∀ k, k < P.numSteps → HasDerivAt (fun s => (h s).V k) (t.V k) 0)
    (hinit : ∀ s, (h s).U 0 = (h 0).U 0 ∧ (h s).V 0 = (h 0).V 0)
    (hcon : ∀ k, 1 ≤ k → k < P.numSteps → ∀ᶠ s in 𝓝 (0 : ℝ), ∀ i v, P.con i = some v →
      (h s).U k i = (h 0).U k i)
    (hrel : ∀ s k, 1 ≤ k → k < P.numSteps → TrapezoidRel P.integ.alpha P.dt ((h s).U k)
      ((h s).U (k - 1)) ((h s).V k) ((h s).V (k - 1)))
    (hfree : ∀ k, 1 ≤ k → k < P.numSteps → ∀ᶠ s in 𝓝 (0 : ℝ), ∀ i, P.con i = none →
      P.pde.value ((h s).U k) ((h s).V k) (line z dz s) i = 0)
    (hpde : ∀ k, k < P.numSteps → P.pde.IsDeriv ((h 0).U k) ((h 0).V k) z)
    (hF : F.IsDeriv P.numSteps f (h 0) z) :
    HasDerivAt (fun s => f (h s) (line z dz s))
      ((P.criterionGradient F z (h 0) adj).2 ⬝ᵥ dz) 0 := by
  have ht : ParTangent P z dz (h 0) t := by
    constructor
    · refine ⟨?_, ?_⟩
      · have : (fun s => (h s).U 0) = fun _ => (h 0).U 0 := funext fun s => (hinit s).1
        have h1 := hU 0 (by omega)
        rw [this] at h1
        exact h1.unique (hasDerivAt_const _ _)
      · have : (fun s => (h s).V 0) = fun _ => (h 0).V 0 := funext fun s => (hinit s).2
        have h1 := hV 0 (by omega)
        rw [this] at h1
        exact h1.unique (hasDerivAt_const _ _)
    · intro k hk1 hk i v hi
      have h1 := (hasDerivAt_pi.1 (hU k hk)) i
      have h2 : (fun s => (h s).U k i) =ᶠ[𝓝 0] fun _ => (h 0).U k i :=
        (hcon k hk1 hk).mono fun s hs => hs i v hi
      exact (h1.congr_of_eventuallyEq h2.symm).unique (hasDerivAt_const _ _)
    · intro k hk1 hk i
      have h1 := (hasDerivAt_pi.1 (hU k hk)) i
      have h2 := (hasDerivAt_pi.1 (hU (k - 1) (by omega))) i
      have h3 := (hasDerivAt_pi.1 (hV k hk)) i
      have h4 := (hasDerivAt_pi.1 (hV (k - 1) (by omega))) i
      have h5 := h2.add (((h4.const_mul (1 - P.integ.alpha)).add
        (h3.const_mul P.integ.alpha)).const_mul P.dt)
      refine h1.unique (h5.congr_of_eventuallyEq (Eventually.of_forall fun s => ?_))
      exact hrel s k hk1 hk i
    · intro k hk1 hk i hi
      have h1 := (hasDerivAt_pi.1 (hpde k hk (fun s => (h s).U k) (fun s => (h s).V k) (line z dz)
        (t.U k) (t.V k) dz rfl rfl (line_zero z dz) (hU k hk) (hV k hk) (hasDerivAt_line z dz))) i
      have h2 : (fun s => P.pde.value ((h s).U k) ((h s).V k) (line z dz s) i) =ᶠ[𝓝 0]
          fun _ => 0 := (hfree k hk1 hk).mono fun s hs => hs i hi
      exact (h1.congr_of_eventuallyEq h2.symm).unique (hasDerivAt_const _ _)
  rw [C30_parabolic_partial P F z dz (h 0) adj ha hdt hN hs hr ht]
  exact hF h (line z dz) t dz rfl (line_zero z dz) hU hV (hasDerivAt_line z dz)

/-- **C30**, parabolic problem, end to end for a linear symmetric problem with zero prescribed
values: `criterionGradient` after `solution` is the derivative of
`control ↦ criterion(solution(control), control)` for every number of steps, whatever history and
adjoints were stored before. -/
theorem C30_parabolic_linear_problem_partial (P : ParProblem ℝ ι ζ) (F : ParCriterion ℝ ι ζ)
    (f : ParHist ℝ ι → (ζ → ℝ) → ℝ) (z dz : ζ → ℝ) (h0 : ParHist ℝ ι)
    (adj : (Nat → ι → ℝ) × (Nat → ι → ℝ)) (ha : P.integ.alpha ≠ 0) (hdt : P.dt ≠ 0)
    (hN : 1 ≤ P.numSteps) (hn : P.numNewton = 1) (hs : P.solve.Exact) (haff : P.pde.Affine)
    (hsymU : ∀ u v i j, P.pde.gradU u v z i j = P.pde.gradU u v z j i)
    (hsymV : ∀ u v i j, P.pde.gradV u v z i j = P.pde.gradV u v z j i)
    (hdet : (conMat P.con (P.sysMat 0 0 z)).det ≠ 0) (hz : ∀ i v, P.con i = some v → v = 0)
    (hpde : ∀ u v, P.pde.IsDeriv u v z) (hF : ∀ h, F.IsDeriv P.numSteps f h z) :
    HasDerivAt (fun s => f (P.solution (line z dz s) h0) (line z dz s))
      ((P.criterionGradient F z (P.solution z h0) adj).2 ⬝ᵥ dz) 0 := by
  have hJU : ∀ i j, DifferentiableAt ℝ (fun s => P.pde.gradU 0 0 (line z dz s) i j) 0 := by
    intro i j
    simp only [haff.entryU]
    exact ((hpde _ _).value_along dz i).sub ((hpde 0 0).value_along dz i)
  have hJV : ∀ i j, DifferentiableAt ℝ (fun s => P.pde.gradV 0 0 (line z dz s) i j) 0 := by
    intro i j
    simp only [haff.entryV]
    exact ((hpde _ _).value_along dz i).sub ((hpde 0 0).value_along dz i)
  have cU : ∀ u v z, P.pde.gradU u v z = P.pde.gradU 0 0 z := by
    intro u v z; ext i j; rw [haff.entryU, haff.entryU]
  have cV : ∀ u v z, P.pde.gradV u v z = P.pde.gradV 0 0 z := by
    intro u v z; ext i j; rw [haff.entryV, haff.entryV]
  have cS : ∀ u v z, P.sysMat u v z = P.sysMat 0 0 z := by
    intro u v z; unfold ParProblem.sysMat; rw [cU, cV]
  have hJS : ∀ i j, DifferentiableAt ℝ (fun s => P.sysMat 0 0 (line z dz s) i j) 0 := by
    intro i j
    simp only [ParProblem.sysMat, Matrix.add_apply, Matrix.smul_apply, smul_eq_mul]
    exact (hJU i j).add ((hJV i j).const_mul _)
  have hC := fun i j => differentiableAt_conMat (c := P.con) hJS i j
  have hd0 : (conMat P.con (P.sysMat 0 0 (line z dz 0))).det ≠ 0 := by simpa using hdet
  have hne : ∀ᶠ s in 𝓝 (0 : ℝ), (conMat P.con (P.sysMat 0 0 (line z dz s))).det ≠ 0 :=
    (differentiableAt_det hC).continuousAt.eventually_ne hd0
  -- differentiability and the discrete equations, step by step
  have key : ∀ n, n ≤ P.numSteps - 1 → ∃ g : ℝ → ParHist ℝ ι,
      (∀ s, g s = loopUp (P.forwardStep (line z dz s)) n 1 h0) ∧
      (∀ k i, DifferentiableAt ℝ (fun s => (g s).U k i) 0) ∧
      (∀ k i, DifferentiableAt ℝ (fun s => (g s).V k i) 0) ∧
      (∀ s k, n < k → (g s).U k = h0.U k ∧ (g s).V k = h0.V k) ∧
      ∀ k, 1 ≤ k → k ≤ n → ∀ᶠ s in 𝓝 (0 : ℝ),
        (∀ i v, P.con i = some v → (g s).U k i = h0.U k i) ∧
        ∀ i, P.con i = none → P.pde.value ((g s).U k) ((g s).V k) (line z dz s) i = 0 := by
    intro n
    induction n with
    | zero =>
      intro _
      exact ⟨fun _ => h0, fun s => rfl, fun k i => differentiableAt_const _,
        fun k i => differentiableAt_const _, fun s k _ => ⟨rfl, rfl⟩, by omega⟩
    | succ n ih =>
      intro hle
      obtain ⟨g, hg, gU, gV, gz, gok⟩ := ih (by omega)
      have hstep : ∀ (z : ζ → ℝ) (m lo : Nat) (h : ParHist ℝ ι),
          loopUp (P.forwardStep z) (m + 1) lo h =
            P.forwardStep z (lo + m) (loopUp (P.forwardStep z) m lo h) := by
        intro z m
        induction m with
        | zero => intro lo h; rfl
        | succ m ihm =>
          intro lo h
          rw [loopUp, ihm, loopUp, Nat.add_assoc, Nat.add_comm 1 m]
      refine ⟨fun s => P.forwardStep (line z dz s) (n + 1) (g s), ?_, ?_, ?_, ?_, ?_⟩
      · intro s
        show P.forwardStep (line z dz s) (n + 1) (g s) = _
        rw [hstep, hg, Nat.add_comm 1 n]
      all_goals
        have hd : ∀ i, DifferentiableAt ℝ (fun s => P.solve
            (conMat P.con (P.sysMat ((g s).U (n + 1)) ((g s).V (n + 1)) (line z dz s))) 0
            (conRhs 1 P.con (P.sysMat ((g s).U (n + 1)) ((g s).V (n + 1)) (line z dz s))
              (-P.pde.value ((g s).U (n + 1)) ((g s).V (n + 1)) (line z dz s) +
                P.pde.gradV ((g s).U (n + 1)) ((g s).V (n + 1)) (line z dz s) *ᵥ
                P.integ.vValue ((g s).U (n + 1)) ((g s).U n) ((g s).V (n + 1)) ((g s).V n)
                  P.dt)) i) 0 := by
          intro i
          refine differentiableAt_solution (A := fun s => conMat P.con (P.sysMat 0 0 (line z dz s)))
            (b := fun s => conRhs 1 P.con (P.sysMat 0 0 (line z dz s))
              (-P.pde.value (h0.U (n + 1)) (h0.V (n + 1)) (line z dz s) +
                P.pde.gradV 0 0 (line z dz s) *ᵥ
                P.integ.vValue (h0.U (n + 1)) ((g s).U n) (h0.V (n + 1)) ((g s).V n) P.dt))
            hC ?_ hd0 ?_ i
          · refine fun i => differentiableAt_conRhs hJS (fun i => ?_) i
            refine ((hpde _ _).value_along dz i).neg.add (differentiableAt_mulVec hJV ?_ i)
            intro i
            simp only [Trapezoid.vValue]
            exact (differentiableAt_const _).sub (DifferentiableAt.const_mul
              (((differentiableAt_const _).sub (gU n i)).sub ((gV n i).const_mul _)) _)
          · filter_upwards [hne] with s hs'
            simp only [cS, cV, (gz s (n + 1) (by omega)).1, (gz s (n + 1) (by omega)).2]
            exact hs _ _ _ (isUnit_det_iff.2 hs')
      · intro k i
        by_cases hk : k = n + 1
        · subst hk
          have : (fun s => (P.forwardStep (line z dz s) (n + 1) (g s)).U (n + 1) i) = fun s =>
              (g s).U (n + 1) i + P.solve
            (conMat P.con (P.sysMat ((g s).U (n + 1)) ((g s).V (n + 1)) (line z dz s))) 0
            (conRhs 1 P.con (P.sysMat ((g s).U (n + 1)) ((g s).V (n + 1)) (line z dz s))
              (-P.pde.value ((g s).U (n + 1)) ((g s).V (n + 1)) (line z dz s) +
                P.pde.gradV ((g s).U (n + 1)) ((g s).V (n + 1)) (line z dz s) *ᵥ
                P.integ.vValue ((g s).U (n + 1)) ((g s).U n) ((g s).V (n + 1)) ((g s).V n)
                  P.dt)) i := by
            funext s
            obtain ⟨d, hd1, hd2, -⟩ := ParProblem.forwardStep_one (P := P) hn (line z dz s) (n + 1)
              (g s)
            rw [hd2, hd1]; rfl
          rw [this]
          exact (gU _ i).add (hd i)
        · have : (fun s => (P.forwardStep (line z dz s) (n + 1) (g s)).U k i) = fun s =>
              (g s).U k i := by
            funext s; rw [(ParProblem.forwardStep_other hk).1]
          rw [this]; exact gU k i
      · intro k i
        by_cases hk : k = n + 1
        · subst hk
          have : (fun s => (P.forwardStep (line z dz s) (n + 1) (g s)).V (n + 1) i) = fun s =>
              (g s).V (n + 1) i - (P.integ.vValue ((g s).U (n + 1)) ((g s).U n) ((g s).V (n + 1))
                ((g s).V n) P.dt i + P.integ.vGradU P.dt * P.solve
            (conMat P.con (P.sysMat ((g s).U (n + 1)) ((g s).V (n + 1)) (line z dz s))) 0
            (conRhs 1 P.con (P.sysMat ((g s).U (n + 1)) ((g s).V (n + 1)) (line z dz s))
              (-P.pde.value ((g s).U (n + 1)) ((g s).V (n + 1)) (line z dz s) +
                P.pde.gradV ((g s).U (n + 1)) ((g s).V (n + 1)) (line z dz s) *ᵥ
                P.integ.vValue ((g s).U (n + 1)) ((g s).U n) ((g s).V (n + 1)) ((g s).V n)
                  P.dt)) i) := by
            funext s
            obtain ⟨d, hd1, -, hd2⟩ := ParProblem.forwardStep_one (P := P) hn (line z dz s) (n + 1)
              (g s)
            rw [hd2, hd1]; rfl
          rw [this]
          refine (gV _ i).sub (DifferentiableAt.add ?_ ((hd i).const_mul _))
          simp only [Trapezoid.vValue]
          exact (gV _ i).sub (DifferentiableAt.const_mul
              (((gU _ i).sub (gU n i)).sub ((gV n i).const_mul _)) _)
        · have : (fun s => (P.forwardStep (line z dz s) (n + 1) (g s)).V k i) = fun s =>
              (g s).V k i := by
            funext s; rw [(ParProblem.forwardStep_other hk).2]
          rw [this]; exact gV k i
      · intro s k hk
        obtain ⟨o1, o2⟩ := ParProblem.forwardStep_other (P := P) (z := line z dz s) (h := g s)
          (show k ≠ n + 1 by omega)
        rw [o1, o2]; exact gz s k (by omega)
      · intro k hk1 hk
        by_cases hkn : k = n + 1
        · subst hkn
          filter_upwards [hne] with s hs'
          have := ParProblem.forwardStep_ok (P := P) hn hs haff hz (z := line z dz s) (k := n + 1)
            (h := g s) (by rw [cS]; exact hs')
          refine ⟨fun i v hi => ?_, this.2⟩
          rw [this.1 i v hi, (gz s (n + 1) (by omega)).1]
        · filter_upwards [gok k hk1 (by omega)] with s hs'
          obtain ⟨o1, o2⟩ := ParProblem.forwardStep_other (P := P) (z := line z dz s) (h := g s) hkn
          rw [o1, o2]; exact hs'
  obtain ⟨g, hg, gU, gV, -, gok⟩ := key (P.numSteps - 1) le_rfl
  have hgs : ∀ s, g s = P.solution (line z dz s) h0 := hg
  have hg0 : g 0 = P.solution z h0 := by rw [hgs, line_zero]
  have := C30_parabolic_total_derivative_partial P F f z dz g
    ⟨fun k => deriv (fun s => (g s).U k) 0, fun k => deriv (fun s => (g s).V k) 0⟩ adj ha hdt hN hs
    ⟨fun k i j => hsymU _ _ i j, fun k i j => hsymV _ _ i j,
      fun k _ _ => by rw [cS]; exact isUnit_det_iff.2 hdet, hz⟩
    (fun k _ => (differentiableAt_pi.2 (gU k)).hasDerivAt)
    (fun k _ => (differentiableAt_pi.2 (gV k)).hasDerivAt)
    (fun s => by
      rw [hgs s, hg0]
      have h1 := (ParProblem.C28_newton_partial P (line z dz s) h0 ha hdt).1
      have h2 := (ParProblem.C28_newton_partial P z h0 ha hdt).1
      exact ⟨h1.1.trans h2.1.symm, h1.2.trans h2.2.symm⟩)
    (fun k hk1 hk => by
      have e0 := (gok k hk1 (by omega)).self_of_nhds
      filter_upwards [gok k hk1 (by omega)] with s hs' i v hi
      rw [hs'.1 i v hi, e0.1 i v hi])
    (fun s k hk1 hk => by
      rw [hgs s]; exact ParProblem.C28_trapezoid P (line z dz s) h0 ha hdt hn k hk1 hk)
    (fun k hk1 hk => (gok k hk1 (by omega)).mono fun s h => h.2)
    (fun k _ => hpde _ _) (hF _)
  rw [hg0] at this
  refine this.congr_of_eventuallyEq (Eventually.of_forall fun s => ?_)
  show f (P.solution (line z dz s) h0) (line z dz s) = f (g s) (line z dz s)
  rw [hgs]

end Plato
