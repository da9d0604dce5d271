import Verif.Time.Forward

/-!
# Trapezoid relations (C28) and prescribed values after repeated solves (C31)
-/

namespace Plato

open Matrix

variable {K ι ζ : Type} [Field K] [Fintype ι] [DecidableEq ι]

/-- Prescribed values are taken by every solution of the constrained system. -/
theorem conSys_prescribed {s : K} {c : Dirichlet K ι} {J : Matrix ι ι K} {b x : ι → K}
    (h : conMat c J *ᵥ x = conRhs s c J b) {i : ι} {v : K} (hi : c i = some v) : x i = s * v :=
  (conSys_gen.1 h).1 i v hi

/-! ## Trapezoid -/

/-- Specification: the (generalised) trapezoid rule between two neighbouring steps. -/
def TrapezoidRel (alpha dt : K) (U Up V Vp : ι → K) : Prop :=
  ∀ i, U i = Up i + dt * ((1 - alpha) * Vp i + alpha * V i)

theorem trapezoid_rel_iff {m : Trapezoid K} {dt : K} (ha : m.alpha ≠ 0) (hdt : dt ≠ 0)
    {U Up V Vp : ι → K} :
    TrapezoidRel m.alpha dt U Up V Vp ↔ m.vValue U Up V Vp dt = 0 := by
  have key : ∀ i, m.vValue U Up V Vp dt i = 0 ↔
      U i = Up i + dt * ((1 - m.alpha) * Vp i + m.alpha * V i) := by
    intro i
    simp only [Trapezoid.vValue]
    constructor
    · intro h
      field_simp at h
      linear_combination -h
    · intro h
      rw [h]; field_simp; ring
  exact ⟨fun h => funext fun i => (key i).2 (h i), fun h i => (key i).1 (congrFun h i)⟩

/-- **C28** (derivatives): the rate residual is affine and the reported derivatives are its
coefficients. -/
theorem C28_derivatives {m : Trapezoid K} {dt : K} (ha : m.alpha ≠ 0) (hdt : dt ≠ 0)
    (U Up V Vp dU dUp dV dVp : ι → K) :
    m.vValue (U + dU) (Up + dUp) (V + dV) (Vp + dVp) dt =
      m.vValue U Up V Vp dt + m.vGradU dt • dU + m.vGradUPrev dt • dUp + dV +
        m.vGradVPrev dt • dVp := by
  funext i
  simp only [Trapezoid.vValue, Trapezoid.vGradU, Trapezoid.vGradUPrev, Trapezoid.vGradVPrev,
    Pi.add_apply, Pi.smul_apply, smul_eq_mul]
  field_simp; ring

theorem trapezoid_update {m : Trapezoid K} {dt : K} (U Up V Vp d : ι → K) :
    m.vValue (U + d) Up (V - (m.vValue U Up V Vp dt + m.vGradU dt • d)) Vp dt = 0 := by
  funext i
  simp only [Trapezoid.vValue, Trapezoid.vGradU, Pi.add_apply, Pi.sub_apply, Pi.smul_apply,
    smul_eq_mul, Pi.zero_apply]
  ring

namespace ParProblem

/-- Every pass that updates the state establishes the relation. -/
theorem newtonPass_rel {P : ParProblem K ι ζ} (ha : P.integ.alpha ≠ 0) (hdt : P.dt ≠ 0)
    {z : ζ → K} {Up Vp U V : ι → K} {it : Nat}
    (h : (P.newtonPass z Up Vp it U V).updated = true) :
    TrapezoidRel P.integ.alpha P.dt (P.newtonPass z Up Vp it U V).U Up
      (P.newtonPass z Up Vp it U V).V Vp := by
  rw [trapezoid_rel_iff ha hdt]
  simp only [newtonPass] at h ⊢
  split at h
  · cases h
  · rename_i hn
    simp only [if_neg hn]
    exact trapezoid_update _ _ _ _ _

/-- A pass without update is a satisfied residual test, and changes nothing. -/
theorem newtonPass_not_updated {P : ParProblem K ι ζ} {z : ζ → K} {Up Vp U V : ι → K} {it : Nat}
    (h : (P.newtonPass z Up Vp it U V).updated = false) :
    P.numNewton > 1 ∧ P.resSmall (-P.pde.value U V z +
      P.pde.gradV U V z *ᵥ P.integ.vValue U Up V Vp P.dt) = true ∧
    P.newtonPass z Up Vp it U V = ⟨U, V, false, true⟩ := by
  simp only [newtonPass] at h ⊢
  split at h
  · rename_i hn
    exact ⟨hn.1, hn.2, by simp only [if_pos hn]⟩
  · cases h

theorem newtonLoop_rel {P : ParProblem K ι ζ} (ha : P.integ.alpha ≠ 0) (hdt : P.dt ≠ 0)
    {z : ζ → K} {Up Vp : ι → K} : ∀ (fuel it : Nat) (U V : ι → K),
    TrapezoidRel P.integ.alpha P.dt U Up V Vp →
    TrapezoidRel P.integ.alpha P.dt (P.newtonLoop z Up Vp fuel it U V).1 Up
      (P.newtonLoop z Up Vp fuel it U V).2 Vp := by
  intro fuel
  induction fuel with
  | zero => intro it U V h; exact h
  | succ fuel ih =>
    intro it U V h
    have hp : TrapezoidRel P.integ.alpha P.dt (P.newtonPass z Up Vp it U V).U Up
        (P.newtonPass z Up Vp it U V).V Vp := by
      rcases hu : (P.newtonPass z Up Vp it U V).updated with _ | _
      · rw [(newtonPass_not_updated hu).2.2]; exact h
      · exact newtonPass_rel ha hdt hu
    simp only [newtonLoop]
    split
    · exact hp
    · exact ih _ _ _ hp

/-- After the Newton loop either the relation holds, or no iteration was allowed, or the residual
test was met on entry and nothing was changed. -/
theorem newtonLoop_cases {P : ParProblem K ι ζ} (ha : P.integ.alpha ≠ 0) (hdt : P.dt ≠ 0)
    (z : ζ → K) (Up Vp U V : ι → K) :
    TrapezoidRel P.integ.alpha P.dt (P.newtonLoop z Up Vp P.numNewton 0 U V).1 Up
      (P.newtonLoop z Up Vp P.numNewton 0 U V).2 Vp ∨
    P.numNewton ≠ 1 ∧ P.newtonLoop z Up Vp P.numNewton 0 U V = (U, V) ∧
      (P.numNewton > 1 → P.resSmall (-P.pde.value U V z +
        P.pde.gradV U V z *ᵥ P.integ.vValue U Up V Vp P.dt) = true) := by
  rcases hn : P.numNewton with _ | m
  · exact Or.inr ⟨by omega, rfl, by omega⟩
  · simp only [newtonLoop]
    rcases hu : (P.newtonPass z Up Vp 0 U V).updated with _ | _
    · obtain ⟨h1, h2, h3⟩ := newtonPass_not_updated hu
      right
      rw [h3]
      exact ⟨by omega, rfl, fun _ => h2⟩
    · left
      have hp := newtonPass_rel ha hdt hu
      split
      · exact hp
      · exact newtonLoop_rel ha hdt _ _ _ _ hp

theorem forwardStep_other {P : ParProblem K ι ζ} {z : ζ → K} {k j : Nat} {h : ParHist K ι}
    (hne : j ≠ k) :
    (P.forwardStep z k h).U j = h.U j ∧ (P.forwardStep z k h).V j = h.V j := by
  constructor <;> simp only [forwardStep, setStep] <;> exact Function.update_of_ne hne _ _

/-- **C28**, general form: after `solution()` every step satisfies the trapezoid rule, or the step
was skipped because its residual test was met on entry (then the step keeps the values it had
before the call), or no Newton iteration was allowed at all. -/
theorem C28_newton_partial (P : ParProblem K ι ζ) (z : ζ → K) (h0 : ParHist K ι)
    (ha : P.integ.alpha ≠ 0) (hdt : P.dt ≠ 0) :
    let h := P.solution z h0
    (h.U 0 = h0.U 0 ∧ h.V 0 = h0.V 0) ∧
    ∀ k, 1 ≤ k → k < P.numSteps →
      TrapezoidRel P.integ.alpha P.dt (h.U k) (h.U (k - 1)) (h.V k) (h.V (k - 1)) ∨
      P.numNewton ≠ 1 ∧ h.U k = h0.U k ∧ h.V k = h0.V k ∧
        (P.numNewton > 1 → P.resSmall (-P.pde.value (h.U k) (h.V k) z + P.pde.gradV (h.U k) (h.V k) z
          *ᵥ P.integ.vValue (h.U k) (h.U (k - 1)) (h.V k) (h.V (k - 1)) P.dt) = true) := by
  have key := loopUp_inv (body := P.forwardStep z)
    (fun j (h : ParHist K ι) =>
      (∀ k, j ≤ k ∨ k = 0 → h.U k = h0.U k ∧ h.V k = h0.V k) ∧
      ∀ k, 1 ≤ k → k < j →
        TrapezoidRel P.integ.alpha P.dt (h.U k) (h.U (k - 1)) (h.V k) (h.V (k - 1)) ∨
        P.numNewton ≠ 1 ∧ h.U k = h0.U k ∧ h.V k = h0.V k ∧
          (P.numNewton > 1 → P.resSmall (-P.pde.value (h.U k) (h.V k) z +
            P.pde.gradV (h.U k) (h.V k) z
            *ᵥ P.integ.vValue (h.U k) (h.U (k - 1)) (h.V k) (h.V (k - 1)) P.dt) = true))
    (P.numSteps - 1) 1 h0 ⟨fun k _ => ⟨rfl, rfl⟩, by omega⟩
    (by
      rintro j h hj - ⟨hz, hr⟩
      refine ⟨?_, ?_⟩
      · intro k hk
        obtain ⟨o1, o2⟩ := forwardStep_other (P := P) (z := z) (h := h) (show k ≠ j by omega)
        rw [o1, o2]
        exact hz k (by omega)
      · intro k hk1 hkj
        obtain ⟨b1, b2⟩ := forwardStep_other (P := P) (z := z) (h := h)
          (show k - 1 ≠ j by omega)
        rcases Nat.lt_succ_iff_lt_or_eq.1 hkj with hlt | rfl
        · obtain ⟨a1, a2⟩ := forwardStep_other (P := P) (z := z) (h := h) (show k ≠ j by omega)
          rw [a1, a2, b1, b2]
          exact hr k hk1 hlt
        · rw [b1, b2]
          obtain ⟨z1, z2⟩ := hz k (Or.inl le_rfl)
          have e1 : (P.forwardStep z k h).U k = (P.newtonLoop z (h.U (k - 1)) (h.V (k - 1))
              P.numNewton 0 (h.U k) (h.V k)).1 := by simp [forwardStep, setStep]
          have e2 : (P.forwardStep z k h).V k = (P.newtonLoop z (h.U (k - 1)) (h.V (k - 1))
              P.numNewton 0 (h.U k) (h.V k)).2 := by simp [forwardStep, setStep]
          rcases newtonLoop_cases ha hdt z (h.U (k - 1)) (h.V (k - 1)) (h.U k) (h.V k)
            with hl | ⟨c1, c2, c3⟩
          · left; rw [e1, e2]; exact hl
          · right
            rw [e1, e2, c2]
            exact ⟨c1, z1, z2, c3⟩)
  exact ⟨key.1 0 (Or.inr rfl), fun k hk1 hk => key.2 k hk1 (by omega)⟩

/-- **C28** for the default of one Newton iteration per step: every step satisfies the trapezoid
rule. -/
theorem C28_trapezoid (P : ParProblem K ι ζ) (z : ζ → K) (h0 : ParHist K ι)
    (ha : P.integ.alpha ≠ 0) (hdt : P.dt ≠ 0) (h1 : P.numNewton = 1) :
    let h := P.solution z h0
    ∀ k, 1 ≤ k → k < P.numSteps →
      TrapezoidRel P.integ.alpha P.dt (h.U k) (h.U (k - 1)) (h.V k) (h.V (k - 1)) := by
  intro h k hk1 hk
  rcases (C28_newton_partial P z h0 ha hdt).2 k hk1 hk with hl | hr
  · exact hl
  · exact absurd h1 hr.1

end ParProblem

/-- A degenerate instance used below: one degree of freedom, the residual does not depend on the
rate and is met at zero. -/
noncomputable def parSkip : ParProblem ℚ Unit Unit where
  pde := ⟨fun u _ _ => u, fun _ _ _ => 1, fun _ _ _ => 0, fun _ _ _ => 0⟩
  integ := ⟨1 / 2⟩
  dt := 1
  numSteps := 2
  numNewton := 2
  resSmall := fun r => decide (r () = 0)
  incSmall := fun _ => false
  con := fun _ => none
  solve := fun A _ b => A⁻¹ *ᵥ b

/-- **C28** is not true for every number of Newton iterations: with two iterations and a residual
that is met on entry the rate of the step is never computed. -/
theorem C28_newton_false :
    ∃ h0 : ParHist ℚ Unit,
      let h := parSkip.solution 0 h0
      ¬ TrapezoidRel parSkip.integ.alpha parSkip.dt (h.U 1) (h.U 0) (h.V 1) (h.V 0) := by
  refine ⟨⟨fun k _ => if k = 0 then 1 else 0, fun _ _ => 0⟩, ?_⟩
  intro h hrel
  have h1 : h.U 1 () = 0 ∧ h.V 1 () = 0 ∧ h.U 0 () = 1 ∧ h.V 0 () = 0 := by
    simp [h, ParProblem.solution, parSkip, loopUp, ParProblem.forwardStep, setStep,
      ParProblem.newtonLoop, ParProblem.newtonPass]
  have := hrel ()
  rw [h1.1, h1.2.1, h1.2.2.1, h1.2.2.2] at this
  norm_num [parSkip] at this

/-- The hypotheses of `C28_trapezoid` are met by a heat-like problem with three steps. -/
example : ∃ P : ParProblem ℚ Unit Unit, P.integ.alpha ≠ 0 ∧ P.dt ≠ 0 ∧ P.numNewton = 1 ∧
    P.numSteps = 3 ∧ P.solve.Exact :=
  ⟨{ parSkip with
      pde := ⟨fun u v _ => u + v, fun _ _ _ => 1, fun _ _ _ => 1, fun _ _ _ => 0⟩
      numSteps := 3, numNewton := 1 }, by norm_num [parSkip], by norm_num [parSkip], rfl, rfl,
    LinSolver.exact_inv⟩

/-! ## Prescribed values (C31) -/

namespace ParProblem

/-- One pass with an exact solve changes a constrained value by the prescribed one in the first
iteration and by zero afterwards. -/
theorem newtonPass_con {P : ParProblem K ι ζ} (hs : P.solve.Exact) {z : ζ → K}
    {Up Vp U V : ι → K} {it : Nat}
    (hdet : IsUnit (conMat P.con (P.pde.gradU U V z + (-P.integ.vGradU P.dt) •
      P.pde.gradV U V z)).det) {i : ι} {v : K} (hi : P.con i = some v) :
    (P.newtonPass z Up Vp it U V).U i =
      if (P.newtonPass z Up Vp it U V).updated ∧ it = 0 then U i + v else U i := by
  simp only [newtonPass]
  split
  · simp
  · have := conSys_prescribed (hs _ 0 (conRhs (newtonScale it) P.con
      (P.pde.gradU U V z + (-P.integ.vGradU P.dt) • P.pde.gradV U V z)
      (-P.pde.value U V z + P.pde.gradV U V z *ᵥ P.integ.vValue U Up V Vp P.dt)) hdet) hi
    simp only [Pi.add_apply, true_and]
    rw [this]
    unfold newtonScale
    split <;> simp

/-- **C31**, parabolic problem, one Newton iteration: each call of `solution()` *adds* the
prescribed value to the constrained degrees of freedom of every step, because the stored history is
not reset. -/
theorem C31_parabolic_adds (P : ParProblem K ι ζ) (z : ζ → K) (h0 : ParHist K ι)
    (hs : P.solve.Exact) (h1 : P.numNewton = 1)
    (hdet : ∀ U V, IsUnit (conMat P.con (P.pde.gradU U V z + (-P.integ.vGradU P.dt) •
      P.pde.gradV U V z)).det)
    (i : ι) (v : K) (hi : P.con i = some v) (k : Nat) (hk1 : 1 ≤ k) (hk : k < P.numSteps) :
    (P.solution z h0).U k i = h0.U k i + v := by
  have key := loopUp_inv (body := P.forwardStep z)
    (fun j (h : ParHist K ι) => (∀ k, j ≤ k → h.U k = h0.U k) ∧
      ∀ k, 1 ≤ k → k < j → h.U k i = h0.U k i + v)
    (P.numSteps - 1) 1 h0 ⟨fun k _ => rfl, by omega⟩
    (by
      rintro j h hj - ⟨hz, hr⟩
      refine ⟨?_, ?_⟩
      · intro k hk
        rw [(forwardStep_other (P := P) (z := z) (h := h) (show k ≠ j by omega)).1]
        exact hz k (by omega)
      · intro k hk1 hkj
        rcases Nat.lt_succ_iff_lt_or_eq.1 hkj with hlt | rfl
        · rw [(forwardStep_other (P := P) (z := z) (h := h) (show k ≠ j by omega)).1]
          exact hr k hk1 hlt
        · have hu : (P.newtonPass z (h.U (k - 1)) (h.V (k - 1)) 0 (h.U k) (h.V k)).updated
              = true := by
            unfold newtonPass; rw [if_neg (by omega)]
          have e : (P.forwardStep z k h).U k =
              (P.newtonPass z (h.U (k - 1)) (h.V (k - 1)) 0 (h.U k) (h.V k)).U := by
            simp only [forwardStep, setStep, Function.update_self, h1, newtonLoop]
            split <;> rfl
          rw [e, newtonPass_con hs (hdet _ _) hi, hu, if_pos ⟨rfl, rfl⟩, hz k le_rfl])
  exact key.2 k hk1 (by omega)

/-- **C31**, parabolic problem: after the first call on a fresh (zero) history the prescribed
values are taken at every step. -/
theorem C31_parabolic_first_partial (P : ParProblem K ι ζ) (z : ζ → K)
    (hs : P.solve.Exact) (h1 : P.numNewton = 1)
    (hdet : ∀ U V, IsUnit (conMat P.con (P.pde.gradU U V z + (-P.integ.vGradU P.dt) •
      P.pde.gradV U V z)).det)
    (i : ι) (v : K) (hi : P.con i = some v) (k : Nat) (hk1 : 1 ≤ k) (hk : k < P.numSteps) :
    (P.solution z ⟨fun _ => 0, fun _ => 0⟩).U k i = v := by
  rw [C31_parabolic_adds P z _ hs h1 hdet i v hi k hk1 hk]; simp

/-- **C31** fails for the parabolic problem: after the second call every step holds twice the
prescribed value. -/
theorem C31_parabolic_false (P : ParProblem K ι ζ) (z : ζ → K)
    (hs : P.solve.Exact) (h1 : P.numNewton = 1)
    (hdet : ∀ U V, IsUnit (conMat P.con (P.pde.gradU U V z + (-P.integ.vGradU P.dt) •
      P.pde.gradV U V z)).det)
    (i : ι) (v : K) (hi : P.con i = some v) (hv : v ≠ 0) (k : Nat) (hk1 : 1 ≤ k)
    (hk : k < P.numSteps) :
    (P.solution z (P.solution z ⟨fun _ => 0, fun _ => 0⟩)).U k i = v + v ∧
    (P.solution z (P.solution z ⟨fun _ => 0, fun _ => 0⟩)).U k i ≠ v := by
  have := C31_parabolic_adds P z (P.solution z ⟨fun _ => 0, fun _ => 0⟩) hs h1 hdet i v hi k hk1 hk
  rw [C31_parabolic_first_partial P z hs h1 hdet i v hi k hk1 hk] at this
  refine ⟨this, ?_⟩
  rw [this]
  intro h
  exact hv (add_eq_left.1 h)

end ParProblem

/-- The hypotheses of `C31_parabolic_false` are met by a heat-like problem. -/
example : ∃ P : ParProblem ℚ Unit Unit, P.solve.Exact ∧ P.numNewton = 1 ∧ 1 < P.numSteps ∧
    P.con () = some 1 ∧ ∀ U V, IsUnit (conMat P.con (P.pde.gradU U V 0 +
      (-P.integ.vGradU P.dt) • P.pde.gradV U V 0)).det :=
  ⟨{ parSkip with numNewton := 1, con := fun _ => some 1 }, LinSolver.exact_inv, rfl,
    by norm_num [parSkip], rfl, by
      intro U V
      have : conMat (fun _ : Unit => some (1 : ℚ)) ((parSkip.pde.gradU U V 0) +
          (-parSkip.integ.vGradU parSkip.dt) • parSkip.pde.gradV U V 0) = 1 := by
        funext i j; simp [conMat]
      simp only [parSkip] at this ⊢
      rw [this]; simp⟩

/-- **C31**, hyperbolic problem: after any call of `solution()`, whatever was stored before, every
step takes the values prescribed for its time. -/
theorem HypProblem.C31_hyperbolic (P : HypProblem K ι ζ) (z : ζ → K) (s : HypState K ι)
    (hs : P.solve.Exact)
    (hdet : ∀ k : Nat, 1 ≤ k → k < P.numSteps →
      IsUnit (conMat (P.bc (k * P.dt)) (P.sysMat 0 0 0 z (k * P.dt))).det)
    (k : Nat) (hk1 : 1 ≤ k) (hk : k < P.numSteps) (i : ι) (v : K)
    (hi : P.bc (k * P.dt) i = some v) : (P.solution z s).hist.U k i = v := by
  have key := loopUp_inv (body := P.forwardStep z)
    (fun j (s : HypState K ι) => j ≤ P.numSteps - 1 + 1 → (s.time + P.dt = j * P.dt ∧
      (∀ k, j ≤ k → s.hist.U k = 0 ∧ s.hist.V k = 0 ∧ s.hist.A k = 0) ∧
      ∀ k : Nat, 1 ≤ k → k < j → ∀ i v, P.bc (k * P.dt) i = some v → s.hist.U k i = v))
    (P.numSteps - 1) 1
    { s with
      hist := ⟨setStep (fun _ => 0) 0 P.initU, setStep (fun _ => 0) 0 P.initV,
        setStep (fun _ => 0) 0 P.initA⟩
      time := 0 }
    (by
      intro _
      refine ⟨by simp, ?_, by omega⟩
      intro k hk
      have : k ≠ 0 := by omega
      simp [setStep, this])
    (by
      intro j s hj hlt ih hj'
      obtain ⟨ht, hz, hr⟩ := ih (by omega)
      refine ⟨?_, ?_, ?_⟩
      · show s.time + P.dt + P.dt = _
        rw [ht]; push_cast; ring
      · intro k hk
        obtain ⟨a1, a2, a3⟩ := forwardStep_other (P := P) (z := z) (s := s) (show k ≠ j by omega)
        rw [a1, a2, a3]
        exact hz k (by omega)
      · intro k hk1 hkj i v hi
        rcases Nat.lt_succ_iff_lt_or_eq.1 hkj with hlt' | rfl
        · rw [(forwardStep_other (P := P) (z := z) (s := s) (show k ≠ j by omega)).1]
          exact hr k hk1 hlt' i v hi
        · obtain ⟨hU, hV, hA⟩ := hz k le_rfl
          simp only [forwardStep, setStep, Function.update_self, hU, hV, hA, sysMat_eq, ht]
          simp only [Pi.add_apply, Pi.zero_apply, zero_add]
          rw [conSys_prescribed (hs _ 0 _ (hdet k hk1 (by omega))) hi, one_mul])
  exact (key (by omega)).2.2 k hk1 (by omega) i v hi

namespace EllProblem

/-- After the first update the constrained values stay. -/
theorem newtonLoop_con {P : EllProblem K ι ζ} (hs : P.solve.Exact) {z : ζ → K}
    (hdet : ∀ u, IsUnit (conMat P.con (P.pde.gradU u z)).det) {i : ι} {v : K}
    (hi : P.con i = some v) : ∀ (fuel it : Nat) (u : ι → K), 0 < it →
    P.newtonLoop z fuel it u i = u i := by
  intro fuel
  induction fuel with
  | zero => intro it u _; rfl
  | succ fuel ih =>
    intro it u hit
    have hp : (P.newtonPass z it u).1 i = u i := by
      simp only [newtonPass]
      split
      · rfl
      · have := conSys_prescribed (hs _ 0 (conRhs (newtonScale it) P.con
          (P.pde.gradU u z) (-P.pde.value u z)) (hdet u)) hi
        simp only [Pi.add_apply]
        rw [this, newtonScale, if_neg (by omega), zero_mul, add_zero]
    simp only [newtonLoop]
    split
    · exact hp
    · rw [ih _ _ (by omega), hp]

/-- **C31**, elliptic problem: after any call of `solution()`, whatever was stored before, the
prescribed values are taken, provided at least one iteration is allowed and the residual test is
not already met by the zero state. -/
theorem C31_elliptic_partial (P : EllProblem K ι ζ) (z : ζ → K) (old : ι → K)
    (hs : P.solve.Exact) (hdet : ∀ u, IsUnit (conMat P.con (P.pde.gradU u z)).det)
    (hn : 1 ≤ P.numNewton)
    (hr : P.numNewton = 1 ∨ P.resSmall (-P.pde.value 0 z) = false)
    (i : ι) (v : K) (hi : P.con i = some v) : P.solution z old i = v := by
  unfold solution
  obtain ⟨m, hm⟩ : ∃ m, P.numNewton = m + 1 := ⟨P.numNewton - 1, by omega⟩
  rw [hm]
  have hp : (P.newtonPass z 0 0).1 i = v := by
    unfold newtonPass
    rw [if_neg (by
      rintro ⟨h1, h2⟩
      rcases hr with hr | hr
      · omega
      · rw [hr] at h2; cases h2)]
    have := conSys_prescribed (hs _ 0 (conRhs (newtonScale 0) P.con
      (P.pde.gradU 0 z) (-P.pde.value 0 z)) (hdet 0)) hi
    simp only [Pi.add_apply, Pi.zero_apply, zero_add]
    rw [this]; simp [newtonScale]
  simp only [newtonLoop]
  split
  · exact hp
  · rw [newtonLoop_con hs hdet hi _ _ _ (by omega), hp]

/-- **C31** fails for the elliptic problem with more than one Newton iteration: when the residual of
the zero state meets the tolerance (no load, only prescribed displacements) the loop is left before
the prescribed values are applied. -/
theorem C31_elliptic_newton_false (P : EllProblem K ι ζ) (z : ζ → K) (old : ι → K)
    (hn : 1 < P.numNewton) (hr : P.resSmall (-P.pde.value 0 z) = true) :
    P.solution z old = 0 := by
  unfold solution
  obtain ⟨m, hm⟩ : ∃ m, P.numNewton = m + 1 := ⟨P.numNewton - 1, by omega⟩
  rw [hm]
  have hp : P.newtonPass z 0 0 = (0, true) := by
    simp only [newtonPass]
    rw [if_pos ⟨hn, hr⟩]
  simp only [newtonLoop, hp]
  simp

end EllProblem

/-- A bar with one prescribed unit displacement and no load. -/
noncomputable def ellBar (n : Nat) : EllProblem ℚ Unit Unit where
  pde := ⟨fun u _ => u, fun _ _ => 1, fun _ _ => 1, fun _ _ => 0⟩
  numNewton := n
  resSmall := fun r => decide (|r ()| < 1 / 1000)
  incSmall := fun _ => false
  con := fun _ => some 1
  solve := fun A _ b => A⁻¹ *ᵥ b
  selfAdjoint := false

/-- The instance behind `C31_elliptic_newton_false`: the bar keeps displacement zero with two
Newton iterations although one is prescribed; with a single iteration the value is taken. -/
theorem C31_elliptic_example :
    (ellBar 2).solution 0 0 () = 0 ∧ (ellBar 2).con () = some 1 ∧
    (ellBar 1).solution 0 0 () = 1 := by
  refine ⟨?_, rfl, ?_⟩
  · rw [EllProblem.C31_elliptic_newton_false (ellBar 2) 0 0 (by norm_num [ellBar])
      (by norm_num [ellBar])]
    rfl
  · refine EllProblem.C31_elliptic_partial (ellBar 1) 0 0 LinSolver.exact_inv ?_ (by simp [ellBar])
      (Or.inl rfl) () 1 rfl
    intro u
    have : conMat (ellBar 1).con ((ellBar 1).pde.gradU u 0) = 1 := by
      funext i j; simp [conMat, ellBar]
    rw [this]; simp

end Plato
