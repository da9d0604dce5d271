import Mathlib.Tactic.FieldSimp
import Mathlib.LinearAlgebra.Matrix.NonsingularInverse
import Verif.Time.Model

/-!
# Time integration: the relations between state and rates (C28, C29)
-/

namespace Plato

open Matrix

variable {K ι ζ : Type} [Field K] [Fintype ι] [DecidableEq ι]

theorem loopUp_inv {σ : Type*} {body : Nat → σ → σ} (P : Nat → σ → Prop) :
    ∀ (n lo : Nat) (s : σ), P lo s →
      (∀ j s, lo ≤ j → j < lo + n → P j s → P (j + 1) (body j s)) →
      P (lo + n) (loopUp body n lo s) := by
  intro n
  induction n with
  | zero => intro lo s h _; exact h
  | succ n ih =>
    intro lo s h hb
    have := ih (lo + 1) (body lo s) (hb lo s le_rfl (by omega) h)
      fun j s h1 h2 => hb j s (by omega) (by omega)
    rwa [Nat.add_assoc, Nat.add_comm 1 n] at this

/-- The solver returns a solution of every system with an invertible matrix. -/
def LinSolver.Exact (solve : LinSolver K ι) : Prop :=
  ∀ (A : Matrix ι ι K) (x0 b : ι → K), IsUnit A.det → A *ᵥ solve A x0 b = b

/-- An exact solver exists. -/
theorem LinSolver.exact_inv : LinSolver.Exact (fun (A : Matrix ι ι K) _ b => A⁻¹ *ᵥ b) := by
  intro A x0 b h
  simp only [mulVec_mulVec]
  rw [mul_nonsing_inv _ h, one_mulVec]

/-! ## Newmark -/

/-- Specification: the Newmark update formulas between two neighbouring steps. -/
structure NewmarkRel (gamma beta dt : K) (U Up V Vp A Ap : ι → K) : Prop where
  vel : ∀ i, V i = Vp i + dt * ((1 - gamma) * Ap i + gamma * A i)
  disp : ∀ i, U i = Up i + dt * Vp i + dt ^ 2 / 2 * ((1 - 2 * beta) * Ap i + 2 * beta * A i)

/-- The two residuals of the integrator vanish exactly when the Newmark formulas hold. -/
theorem newmark_rel_iff {m : Newmark K} {dt : K} (hb : m.beta ≠ 0) (hdt : dt ≠ 0)
    (h2 : (2 : K) ≠ 0) {U Up V Vp A Ap : ι → K} :
    NewmarkRel m.gamma m.beta dt U Up V Vp A Ap ↔
      m.vValue U Up V Vp A Ap dt = 0 ∧ m.aValue U Up V Vp A Ap dt = 0 := by
  have key : ∀ i, m.aValue U Up V Vp A Ap dt i = 0 ↔
      U i = Up i + dt * Vp i + dt ^ 2 / 2 * ((1 - 2 * m.beta) * Ap i + 2 * m.beta * A i) := by
    intro i
    simp only [Newmark.aValue]
    constructor
    · intro h
      field_simp at h ⊢
      linear_combination -h
    · intro h
      rw [h]; field_simp; ring
  have key2 : ∀ i, m.aValue U Up V Vp A Ap dt i = 0 →
      (m.vValue U Up V Vp A Ap dt i = 0 ↔
        V i = Vp i + dt * ((1 - m.gamma) * Ap i + m.gamma * A i)) := by
    intro i h
    have h1 : m.gamma / (m.beta * dt) * (U i - (Up i + dt * Vp i + dt * dt / 2 *
        (1 - 2 * m.beta) * Ap i)) = m.gamma * dt * A i := by
      simp only [Newmark.aValue] at h
      have : A i = 1 / (m.beta * dt * dt) * (U i - (Up i + dt * Vp i + dt * dt / 2 *
        (1 - 2 * m.beta) * Ap i)) := by linear_combination h
      rw [this]; field_simp
    simp only [Newmark.vValue]
    rw [h1]
    constructor
    · intro h; linear_combination h
    · intro h; rw [h]; ring
  constructor
  · rintro ⟨hv, hd⟩
    have ha : m.aValue U Up V Vp A Ap dt = 0 := funext fun i => (key i).2 (hd i)
    exact ⟨funext fun i => (key2 i (congrFun ha i)).2 (hv i), ha⟩
  · rintro ⟨hv, ha⟩
    exact ⟨fun i => (key2 i (congrFun ha i)).1 (congrFun hv i), fun i => (key i).1 (congrFun ha i)⟩

/-- **C29** (derivatives): the velocity residual is affine and the reported derivatives are its
coefficients. -/
theorem C29_vValue_derivatives {m : Newmark K} {dt : K} (hb : m.beta ≠ 0) (hdt : dt ≠ 0)
    (h2 : (2 : K) ≠ 0) (U Up V Vp A Ap dU dUp dV dVp dA dAp : ι → K) :
    m.vValue (U + dU) (Up + dUp) (V + dV) (Vp + dVp) (A + dA) (Ap + dAp) dt =
      m.vValue U Up V Vp A Ap dt + m.vGradU dt • dU + m.vGradUPrev dt • dUp + dV +
        m.vGradVPrev dt • dVp + m.vGradAPrev dt • dAp := by
  funext i
  simp only [Newmark.vValue, Newmark.vGradU, Newmark.vGradUPrev, Newmark.vGradVPrev,
    Newmark.vGradAPrev, Pi.add_apply, Pi.smul_apply, smul_eq_mul]
  field_simp; ring

/-- **C29** (derivatives): the acceleration residual is affine and the reported derivatives are
its coefficients. -/
theorem C29_aValue_derivatives {m : Newmark K} {dt : K} (hb : m.beta ≠ 0) (hdt : dt ≠ 0)
    (h2 : (2 : K) ≠ 0) (U Up V Vp A Ap dU dUp dV dVp dA dAp : ι → K) :
    m.aValue (U + dU) (Up + dUp) (V + dV) (Vp + dVp) (A + dA) (Ap + dAp) dt =
      m.aValue U Up V Vp A Ap dt + m.aGradU dt • dU + m.aGradUPrev dt • dUp +
        m.aGradVPrev dt • dVp + dA + m.aGradAPrev dt • dAp := by
  funext i
  simp only [Newmark.aValue, Newmark.aGradU, Newmark.aGradUPrev, Newmark.aGradVPrev,
    Newmark.aGradAPrev, Pi.add_apply, Pi.smul_apply, smul_eq_mul]
  field_simp; ring

/-- The update of velocity and acceleration makes both integrator residuals zero, whatever the
displacement increment. -/
theorem newmark_update {m : Newmark K} {dt : K} (hb : m.beta ≠ 0) (hdt : dt ≠ 0)
    (U Up V Vp A Ap d : ι → K) :
    m.vValue (U + d) Up (V - (m.vValue U Up V Vp A Ap dt + m.vGradU dt • d)) Vp
        (A - (m.aValue U Up V Vp A Ap dt + m.aGradU dt • d)) Ap dt = 0 ∧
    m.aValue (U + d) Up (V - (m.vValue U Up V Vp A Ap dt + m.vGradU dt • d)) Vp
        (A - (m.aValue U Up V Vp A Ap dt + m.aGradU dt • d)) Ap dt = 0 := by
  constructor <;> funext i <;>
    simp only [Newmark.vValue, Newmark.aValue, Newmark.vGradU, Newmark.aGradU, Pi.add_apply,
      Pi.sub_apply, Pi.smul_apply, smul_eq_mul, Pi.zero_apply] <;> ring

namespace HypProblem

/-- Facts about one pass of the time loop. -/
theorem forwardStep_other {P : HypProblem K ι ζ} {z : ζ → K} {k j : Nat} {s : HypState K ι}
    (h : j ≠ k) :
    (P.forwardStep z k s).hist.U j = s.hist.U j ∧ (P.forwardStep z k s).hist.V j = s.hist.V j ∧
      (P.forwardStep z k s).hist.A j = s.hist.A j := by
  refine ⟨?_, ?_, ?_⟩ <;> simp only [forwardStep, setStep] <;> exact Function.update_of_ne h _ _

theorem forwardStep_rel {P : HypProblem K ι ζ} {z : ζ → K} {k : Nat} {s : HypState K ι}
    (hb : P.integ.beta ≠ 0) (hdt : P.dt ≠ 0) (h2 : (2 : K) ≠ 0) (hk : 1 ≤ k) :
    NewmarkRel P.integ.gamma P.integ.beta P.dt
      ((P.forwardStep z k s).hist.U k) ((P.forwardStep z k s).hist.U (k - 1))
      ((P.forwardStep z k s).hist.V k) ((P.forwardStep z k s).hist.V (k - 1))
      ((P.forwardStep z k s).hist.A k) ((P.forwardStep z k s).hist.A (k - 1)) := by
  obtain ⟨h1, h2', h3⟩ := forwardStep_other (P := P) (z := z) (s := s) (show k - 1 ≠ k by omega)
  rw [h1, h2', h3, newmark_rel_iff hb hdt h2]
  have := newmark_update (m := P.integ) hb hdt (s.hist.U k) (s.hist.U (k - 1)) (s.hist.V k)
    (s.hist.V (k - 1)) (s.hist.A k) (s.hist.A (k - 1))
  simpa only [forwardStep, setStep, Function.update_self] using this _

/-- **C29**: after `solution()` every step satisfies the Newmark formulas and step 0 holds the
initial conditions, for every residual, boundary condition and linear solver and whatever the
member variables held before the call. -/
theorem C29_newmark (P : HypProblem K ι ζ) (z : ζ → K) (s : HypState K ι)
    (hb : P.integ.beta ≠ 0) (hdt : P.dt ≠ 0) (h2 : (2 : K) ≠ 0) :
    let h := (P.solution z s).hist
    (h.U 0 = P.initU ∧ h.V 0 = P.initV ∧ h.A 0 = P.initA) ∧
    ∀ k, 1 ≤ k → k < P.numSteps →
      NewmarkRel P.integ.gamma P.integ.beta P.dt (h.U k) (h.U (k - 1)) (h.V k) (h.V (k - 1))
        (h.A k) (h.A (k - 1)) := by
  have key := loopUp_inv (body := P.forwardStep z)
    (fun j (s : HypState K ι) =>
      (s.hist.U 0 = P.initU ∧ s.hist.V 0 = P.initV ∧ s.hist.A 0 = P.initA) ∧
      ∀ k, 1 ≤ k → k < j →
        NewmarkRel P.integ.gamma P.integ.beta P.dt (s.hist.U k) (s.hist.U (k - 1)) (s.hist.V k)
          (s.hist.V (k - 1)) (s.hist.A k) (s.hist.A (k - 1)))
    (P.numSteps - 1) 1
    { s with
      hist := ⟨setStep (fun _ => 0) 0 P.initU, setStep (fun _ => 0) 0 P.initV,
        setStep (fun _ => 0) 0 P.initA⟩
      time := 0 }
    ⟨⟨by simp [setStep], by simp [setStep], by simp [setStep]⟩, by omega⟩
    (by
      rintro j s hj - ⟨⟨i1, i2, i3⟩, hr⟩
      obtain ⟨o1, o2, o3⟩ := forwardStep_other (P := P) (z := z) (s := s) (show 0 ≠ j by omega)
      refine ⟨⟨o1.trans i1, o2.trans i2, o3.trans i3⟩, ?_⟩
      intro k hk1 hkj
      rcases Nat.lt_succ_iff_lt_or_eq.1 hkj with hlt | rfl
      · obtain ⟨a1, a2, a3⟩ := forwardStep_other (P := P) (z := z) (s := s) (show k ≠ j by omega)
        obtain ⟨b1, b2, b3⟩ := forwardStep_other (P := P) (z := z) (s := s)
          (show k - 1 ≠ j by omega)
        rw [a1, a2, a3, b1, b2, b3]
        exact hr k hk1 hlt
      · exact forwardStep_rel hb hdt h2 hk1)
  refine ⟨key.1, fun k hk1 hk => key.2 k hk1 (by omega)⟩

end HypProblem

/-- Specification: at time `t` and design `z` the residual is affine in the state with the
reported derivative matrices as coefficients (a linear equation of motion). -/
def HypPde.AffineAt (pde : HypPde K ι ζ) (z : ζ → K) (t : K) : Prop :=
  ∀ u v a du dv da, pde.value (u + du) (v + dv) (a + da) z t =
    pde.value u v a z t + pde.gradU u v a z t *ᵥ du + pde.gradV u v a z t *ᵥ dv +
      pde.gradA u v a z t *ᵥ da

/-- The system matrix of a step: derivative of the residual with rates eliminated by the Newmark
formulas. -/
def HypProblem.sysMat (P : HypProblem K ι ζ) (u v a : ι → K) (z : ζ → K) (t : K) : Matrix ι ι K :=
  P.pde.gradU u v a z t + (P.integ.gamma / (P.integ.beta * P.dt)) • P.pde.gradV u v a z t +
    (1 / (P.integ.beta * P.dt * P.dt)) • P.pde.gradA u v a z t

namespace HypProblem

theorem sysMat_eq (P : HypProblem K ι ζ) (u v a : ι → K) (z : ζ → K) (t : K) :
    P.pde.gradU u v a z t + (-P.integ.vGradU P.dt) • P.pde.gradV u v a z t +
      (-P.integ.aGradU P.dt) • P.pde.gradA u v a z t = P.sysMat u v a z t := by
  simp only [sysMat, Newmark.vGradU, Newmark.aGradU, neg_div, neg_neg]

/-- What a step of a linear problem achieves. -/
structure StepOk (P : HypProblem K ι ζ) (z : ζ → K) (t : K) (U V A : ι → K) : Prop where
  motion : ∀ i, P.bc t i = none → P.pde.value U V A z t i = 0
  prescribed : ∀ i v, P.bc t i = some v → U i = v

theorem forwardStep_ok {P : HypProblem K ι ζ} {z : ζ → K} {k : Nat} {s : HypState K ι}
    (hsolve : P.solve.Exact) (haff : P.pde.AffineAt z (s.time + P.dt))
    (hsym : ∀ i j, P.sysMat 0 0 0 z (s.time + P.dt) i j = P.sysMat 0 0 0 z (s.time + P.dt) j i)
    (hdet : IsUnit (conMat (P.bc (s.time + P.dt)) (P.sysMat 0 0 0 z (s.time + P.dt))).det)
    (h0 : s.hist.U k = 0 ∧ s.hist.V k = 0 ∧ s.hist.A k = 0) :
    P.StepOk z (s.time + P.dt) ((P.forwardStep z k s).hist.U k) ((P.forwardStep z k s).hist.V k)
      ((P.forwardStep z k s).hist.A k) := by
  obtain ⟨hU, hV, hA⟩ := h0
  simp only [forwardStep, setStep, Function.update_self, hU, hV, hA, sysMat_eq]
  generalize hv : P.integ.vValue 0 (s.hist.U (k - 1)) 0 (s.hist.V (k - 1)) 0 (s.hist.A (k - 1))
    P.dt = rv
  generalize ha : P.integ.aValue 0 (s.hist.U (k - 1)) 0 (s.hist.V (k - 1)) 0 (s.hist.A (k - 1))
    P.dt = ra
  generalize s.time + P.dt = t at *
  set res := -P.pde.value 0 0 0 z t + P.pde.gradV 0 0 0 z t *ᵥ rv + P.pde.gradA 0 0 0 z t *ᵥ ra
    with hres
  have hd := hsolve _ 0 (conRhs 1 (P.bc t) (P.sysMat 0 0 0 z t) res) hdet
  set d := P.solve (conMat (P.bc t) (P.sysMat 0 0 0 z t)) 0
    (conRhs 1 (P.bc t) (P.sysMat 0 0 0 z t) res) with hddef
  obtain ⟨hpre, hfree⟩ := (conSys_symm hsym).1 hd
  constructor
  · intro i hi
    have h1 := hfree i hi
    have h2 := congrFun (haff 0 0 0 d (-(rv + P.integ.vGradU P.dt • d))
      (-(ra + P.integ.aGradU P.dt • d))) i
    simp only [zero_add, zero_sub] at h2 ⊢
    rw [h2]
    rw [← sysMat_eq] at h1
    simp only [hres, Pi.add_apply, Pi.neg_apply, mulVec_neg, mulVec_add, mulVec_smul, add_mulVec,
      smul_mulVec, Pi.smul_apply, smul_eq_mul] at h1 ⊢
    linear_combination h1
  · intro i v hi
    have := hpre i v hi
    rw [one_mul] at this
    simpa using this

/-- **C29**: for a linear equation of motion with exact linear solves, every step `k` satisfies the
equation of motion at time `k*dt` at every free degree of freedom, and every constrained degree of
freedom has the value prescribed for that time. -/
theorem C29_equation_of_motion (P : HypProblem K ι ζ) (z : ζ → K) (s : HypState K ι)
    (hsolve : P.solve.Exact) (haff : ∀ t, P.pde.AffineAt z t)
    (hsym : ∀ k : Nat, ∀ i j, P.sysMat 0 0 0 z (k * P.dt) i j = P.sysMat 0 0 0 z (k * P.dt) j i)
    (hdet : ∀ k : Nat, 1 ≤ k → k < P.numSteps →
      IsUnit (conMat (P.bc (k * P.dt)) (P.sysMat 0 0 0 z (k * P.dt))).det) :
    let h := (P.solution z s).hist
    ∀ k : Nat, 1 ≤ k → k < P.numSteps → P.StepOk z (k * P.dt) (h.U k) (h.V k) (h.A k) := by
  have key := loopUp_inv (body := P.forwardStep z)
    (fun j (s : HypState K ι) => (j ≤ P.numSteps - 1 + 1 → s.time + P.dt = j * P.dt ∧
      (∀ k, j ≤ k → s.hist.U k = 0 ∧ s.hist.V k = 0 ∧ s.hist.A k = 0) ∧
      ∀ k : Nat, 1 ≤ k → k < j →
        P.StepOk z (k * P.dt) (s.hist.U k) (s.hist.V k) (s.hist.A k)))
    (P.numSteps - 1) 1
    { s with
      hist := ⟨setStep (fun _ => 0) 0 P.initU, setStep (fun _ => 0) 0 P.initV,
        setStep (fun _ => 0) 0 P.initA⟩
      time := 0 }
    (by
      intro _
      refine ⟨by simp, ?_, by omega⟩
      intro k hk
      have : k ≠ 0 := by omega
      simp [setStep, this])
    (by
      intro j s hj hlt ih hj'
      obtain ⟨ht, hz, hr⟩ := ih (by omega)
      refine ⟨?_, ?_, ?_⟩
      · show s.time + P.dt + P.dt = _
        rw [ht]; push_cast; ring
      · intro k hk
        obtain ⟨a1, a2, a3⟩ := forwardStep_other (P := P) (z := z) (s := s) (show k ≠ j by omega)
        rw [a1, a2, a3]
        exact hz k (by omega)
      · intro k hk1 hkj
        rcases Nat.lt_succ_iff_lt_or_eq.1 hkj with hlt' | rfl
        · obtain ⟨a1, a2, a3⟩ := forwardStep_other (P := P) (z := z) (s := s)
            (show k ≠ j by omega)
          rw [a1, a2, a3]
          exact hr k hk1 hlt'
        · rw [← ht]
          exact forwardStep_ok hsolve (haff _) (by rw [ht]; exact hsym k)
            (by rw [ht]; exact hdet k hk1 (by omega)) (hz k le_rfl))
  intro h k hk1 hk
  exact (key (by omega)).2.2 k hk1 (by omega)

end HypProblem

end Plato
