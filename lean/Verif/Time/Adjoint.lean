import Verif.Time.Steady

/-!
# Adjoint gradients: the algebraic identity (C27, C30)

A *tangent* of the discrete equations in the design direction `dz` is a history that satisfies the
linearised equations.  The theorems below say that the gradient computed by the backward sweep,
applied to `dz`, is the change of the criterion along the tangent.  The derivative statements for
real scalars are in `TotalDeriv.lean`.
-/

namespace Plato

open Matrix Finset

variable {K ι ζ : Type} [Field K] [Fintype ι] [DecidableEq ι] [Fintype ζ]

theorem loopDown_inv {σ : Type*} {body : Nat → σ → σ} (P : Nat → σ → Prop) :
    ∀ (n : Nat) (s : σ), P n s → (∀ j s, 1 ≤ j → j ≤ n → P j s → P (j - 1) (body j s)) →
      P 0 (loopDown body n s) := by
  intro n
  induction n with
  | zero => intro s h _; exact h
  | succ n ih =>
    intro s h hb
    exact ih _ (hb (n + 1) s (by omega) le_rfl h) fun j s h1 h2 => hb j s h1 (by omega)

/-- Vectors that agree where the other one is not zero have the same scalar product with it. -/
theorem dot_congr_free {c : Dirichlet K ι} {x y u : ι → K}
    (h : ∀ i, c i = none → x i = y i) (hu : ∀ i v, c i = some v → u i = 0) : x ⬝ᵥ u = y ⬝ᵥ u := by
  refine sum_congr rfl fun i _ => ?_
  rcases hi : c i with _ | v
  · rw [h i hi]
  · rw [hu i v hi, mul_zero, mul_zero]

theorem dot_symm {J : Matrix ι ι K} (hJ : ∀ i j, J i j = J j i) (x y : ι → K) :
    (J *ᵥ x) ⬝ᵥ y = x ⬝ᵥ (J *ᵥ y) := by
  have : Jᵀ = J := by ext i j; exact hJ j i
  rw [dotProduct_comm, dotProduct_mulVec, ← mulVec_transpose, this, dotProduct_comm]

omit [DecidableEq ι] in
theorem dot_transpose (R : Matrix ζ ι K) (x : ι → K) (y : ζ → K) :
    (R *ᵥ x) ⬝ᵥ y = x ⬝ᵥ (Rᵀ *ᵥ y) := by
  rw [dotProduct_comm, dotProduct_mulVec, ← mulVec_transpose, dotProduct_comm]

/-! ## Hyperbolic -/

/-- A history satisfies the linearised discrete equations of the hyperbolic problem in the design
direction `dz`, around the history `h`: fixed initial conditions and prescribed values, Newmark
formulas, linearised equation of motion at the free degrees of freedom. -/
structure HypTangent (P : HypProblem K ι ζ) (z dz : ζ → K) (con : Dirichlet K ι)
    (h t : HypHist K ι) : Prop where
  init : t.U 0 = 0 ∧ t.V 0 = 0 ∧ t.A 0 = 0
  fixed : ∀ k, 1 ≤ k → k < P.numSteps → ∀ i v, con i = some v → t.U k i = 0
  rel : ∀ k, 1 ≤ k → k < P.numSteps →
    NewmarkRel P.integ.gamma P.integ.beta P.dt (t.U k) (t.U (k - 1)) (t.V k) (t.V (k - 1))
      (t.A k) (t.A (k - 1))
  motion : ∀ k : Nat, 1 ≤ k → k < P.numSteps → ∀ i, con i = none →
    (P.pde.gradU (h.U k) (h.V k) (h.A k) z (k * P.dt) *ᵥ t.U k +
      P.pde.gradV (h.U k) (h.V k) (h.A k) z (k * P.dt) *ᵥ t.V k +
      P.pde.gradA (h.U k) (h.V k) (h.A k) z (k * P.dt) *ᵥ t.A k +
      (P.pde.gradZ (h.U k) (h.V k) (h.A k) z (k * P.dt))ᵀ *ᵥ dz) i = 0

/-- The change of the criterion along a tangent. -/
def HypCriterion.along (F : HypCriterion K ι ζ) (N : Nat) (h t : HypHist K ι) (z dz : ζ → K) : K :=
  ∑ k ∈ range N, (F.gradU h z k ⬝ᵥ t.U k + F.gradV h z k ⬝ᵥ t.V k + F.gradA h z k ⬝ᵥ t.A k) +
    F.gradZ h z ⬝ᵥ dz

/-- What the backward sweep needs of the equations of motion: derivative matrices that are
symmetric, do not depend on time, and lead to solvable constrained systems. -/
structure HypProblem.AdjointReady (P : HypProblem K ι ζ) (z : ζ → K) (con : Dirichlet K ι)
    (h : HypHist K ι) : Prop where
  symU : ∀ k t i j, P.pde.gradU (h.U k) (h.V k) (h.A k) z t i j =
    P.pde.gradU (h.U k) (h.V k) (h.A k) z t j i
  symV : ∀ k t i j, P.pde.gradV (h.U k) (h.V k) (h.A k) z t i j =
    P.pde.gradV (h.U k) (h.V k) (h.A k) z t j i
  symA : ∀ k t i j, P.pde.gradA (h.U k) (h.V k) (h.A k) z t i j =
    P.pde.gradA (h.U k) (h.V k) (h.A k) z t j i
  timeU : ∀ k t t', P.pde.gradU (h.U k) (h.V k) (h.A k) z t =
    P.pde.gradU (h.U k) (h.V k) (h.A k) z t'
  timeV : ∀ k t t', P.pde.gradV (h.U k) (h.V k) (h.A k) z t =
    P.pde.gradV (h.U k) (h.V k) (h.A k) z t'
  timeA : ∀ k t t', P.pde.gradA (h.U k) (h.V k) (h.A k) z t =
    P.pde.gradA (h.U k) (h.V k) (h.A k) z t'
  timeZ : ∀ k t t', P.pde.gradZ (h.U k) (h.V k) (h.A k) z t =
    P.pde.gradZ (h.U k) (h.V k) (h.A k) z t'
  det : ∀ k t, 1 ≤ k → k < P.numSteps →
    IsUnit (conMat con (P.sysMat (h.U k) (h.V k) (h.A k) z t)).det
  zeroBc : ∀ i v, con i = some v → v = 0

/-- One backward step moves the sensitivity from step `k` to step `k-1` and to the design. -/
theorem hyp_adjoint_step {m : Newmark K} {dt : K} (hb : m.beta ≠ 0) (hdt : dt ≠ 0)
    (h2 : (2 : K) ≠ 0) {con : Dirichlet K ι} {Ju Jv Ja : Matrix ι ι K} {Rz : Matrix ζ ι K}
    (sU : ∀ i j, Ju i j = Ju j i) (sV : ∀ i j, Jv i j = Jv j i) (sA : ∀ i j, Ja i j = Ja j i)
    {u v a u' v' a' fu fv fa Lu : ι → K} {dz : ζ → K}
    (hrel : NewmarkRel m.gamma m.beta dt u u' v v' a a')
    (hu : ∀ i w, con i = some w → u i = 0) (hL : ∀ i w, con i = some w → Lu i = 0)
    (hm : ∀ i, con i = none → (Ju *ᵥ u + Jv *ᵥ v + Ja *ᵥ a + Rzᵀ *ᵥ dz) i = 0)
    (hLs : ∀ i, con i = none → ((Ju + (-m.vGradU dt) • Jv + (-m.aGradU dt) • Ja) *ᵥ Lu) i =
      (-fu + m.vGradU dt • fv + m.aGradU dt • fa) i) :
    fu ⬝ᵥ u + fv ⬝ᵥ v + fa ⬝ᵥ a =
      (m.vGradUPrev dt • (-(fv + Jv *ᵥ Lu)) + m.aGradUPrev dt • (-(fa + Ja *ᵥ Lu))) ⬝ᵥ u' +
      (m.vGradVPrev dt • (-(fv + Jv *ᵥ Lu)) + m.aGradVPrev dt • (-(fa + Ja *ᵥ Lu))) ⬝ᵥ v' +
      (m.vGradAPrev dt • (-(fv + Jv *ᵥ Lu)) + m.aGradAPrev dt • (-(fa + Ja *ᵥ Lu))) ⬝ᵥ a' +
      (Rz *ᵥ Lu) ⬝ᵥ dz := by
  obtain ⟨rv, ra⟩ := (newmark_rel_iff hb hdt h2).1 hrel
  have ev := C29_vValue_derivatives (m := m) hb hdt h2 (0 : ι → K) 0 0 0 0 0 u u' v v' a a'
  have ea := C29_aValue_derivatives (m := m) hb hdt h2 (0 : ι → K) 0 0 0 0 0 u u' v v' a a'
  have z1 : m.vValue (0 : ι → K) 0 0 0 0 0 dt = 0 := by funext i; simp [Newmark.vValue]
  have z2 : m.aValue (0 : ι → K) 0 0 0 0 0 dt = 0 := by funext i; simp [Newmark.aValue]
  simp only [zero_add, rv, ra, z1, z2] at ev ea
  have e1 := congrArg (fun x => (fv + Jv *ᵥ Lu) ⬝ᵥ x) ev
  have e2 := congrArg (fun x => (fa + Ja *ᵥ Lu) ⬝ᵥ x) ea
  have e3 : (Ju *ᵥ u + Jv *ᵥ v + Ja *ᵥ a + Rzᵀ *ᵥ dz) ⬝ᵥ Lu = 0 := by
    rw [dot_congr_free (y := 0) hm hL, zero_dotProduct]
  have e4 := dot_congr_free hLs hu
  have s1 := dot_symm sU u Lu
  have s2 := dot_symm sV v Lu
  have s3 := dot_symm sA a Lu
  have s4 := dot_transpose Rz Lu dz
  rw [dotProduct_comm Lu] at s4
  have s5 := dotProduct_comm u (Ju *ᵥ Lu)
  have s6 := dotProduct_comm v (Jv *ᵥ Lu)
  have s7 := dotProduct_comm a (Ja *ᵥ Lu)
  simp only [dotProduct_add, add_dotProduct, dotProduct_smul, smul_dotProduct, neg_dotProduct,
    dotProduct_zero, smul_eq_mul, add_mulVec, smul_mulVec, smul_add, smul_neg] at e1 e2 e3 e4 ⊢
  linear_combination -e1 - e2 - e3 + e4 + s1 + s2 + s3 - s4 + s5 + s6 + s7

theorem HypProblem.sysMat_symm {P : HypProblem K ι ζ} {z : ζ → K} {con : Dirichlet K ι}
    {h : HypHist K ι} (hr : P.AdjointReady z con h) (k : Nat) (t : K) (i j : ι) :
    P.sysMat (h.U k) (h.V k) (h.A k) z t i j = P.sysMat (h.U k) (h.V k) (h.A k) z t j i := by
  simp only [HypProblem.sysMat, Matrix.add_apply, Matrix.smul_apply]
  rw [hr.symU, hr.symV, hr.symA]

/-- **C30**, hyperbolic problem, algebraic form.  For symmetric, time independent derivative
matrices and zero prescribed values, the gradient returned by `criterionGradient` applied to any
design direction is the change of the criterion along every tangent of the discrete equations. -/
theorem C30_hyperbolic_partial (P : HypProblem K ι ζ) (F : HypCriterion K ι ζ) (z dz : ζ → K)
    (s : HypState K ι) (hb : P.integ.beta ≠ 0) (hdt : P.dt ≠ 0) (h2 : (2 : K) ≠ 0)
    (hN : 1 ≤ P.numSteps) (hs : P.solve.Exact) (hr : P.AdjointReady z s.con s.hist)
    {t : HypHist K ι} (ht : HypTangent P z dz s.con s.hist t) :
    (P.criterionGradient F z s).2 ⬝ᵥ dz = F.along P.numSteps s.hist t z dz := by
  obtain ⟨i1, i2, i3⟩ := ht.init
  have key := loopDown_inv (body := P.backwardStep F z)
    (fun j (q : HypState K ι × (ζ → K)) => q.1.hist = s.hist ∧ q.1.con = s.con ∧
      ∑ k ∈ range (j + 1), (F.gradU s.hist z k ⬝ᵥ t.U k + F.gradV s.hist z k ⬝ᵥ t.V k +
          F.gradA s.hist z k ⬝ᵥ t.A k) +
        (if j ≠ P.numSteps - 1 then
          (P.integ.vGradUPrev P.dt • q.1.adjV (j + 1) + P.integ.aGradUPrev P.dt •
            q.1.adjA (j + 1)) ⬝ᵥ t.U j +
          (P.integ.vGradVPrev P.dt • q.1.adjV (j + 1) + P.integ.aGradVPrev P.dt •
            q.1.adjA (j + 1)) ⬝ᵥ t.V j +
          (P.integ.vGradAPrev P.dt • q.1.adjV (j + 1) + P.integ.aGradAPrev P.dt •
            q.1.adjA (j + 1)) ⬝ᵥ t.A j
        else 0) + q.2 ⬝ᵥ dz = F.along P.numSteps s.hist t z dz)
    (P.numSteps - 1) ({ s with time := P.dt * (P.numSteps : K) }, F.gradZ s.hist z)
    (by
      refine ⟨rfl, rfl, ?_⟩
      rw [if_neg (by simp), add_zero, HypCriterion.along,
        show P.numSteps - 1 + 1 = P.numSteps by omega])
    (by
      rintro j ⟨st, g⟩ hj1 hj ⟨hh, hc, heq⟩
      have hjN : j < P.numSteps := by omega
      simp only at hh hc heq
      refine ⟨hh, hc, ?_⟩
      rw [if_pos (by omega), show j - 1 + 1 = j by omega]
      rw [sum_range_succ] at heq
      simp only [HypProblem.backwardStep, setStep, Function.update_self, hh, hc,
        HypProblem.sysMat_eq]
      -- gather the sensitivities of step `j`
      generalize hfu : (if j ≠ P.numSteps - 1 then F.gradU s.hist z j +
        P.integ.vGradUPrev P.dt • st.adjV (j + 1) + P.integ.aGradUPrev P.dt • st.adjA (j + 1)
        else F.gradU s.hist z j) = fu
      generalize hfv : (if j ≠ P.numSteps - 1 then F.gradV s.hist z j +
        P.integ.vGradVPrev P.dt • st.adjV (j + 1) + P.integ.aGradVPrev P.dt • st.adjA (j + 1)
        else F.gradV s.hist z j) = fv
      generalize hfa : (if j ≠ P.numSteps - 1 then F.gradA s.hist z j +
        P.integ.vGradAPrev P.dt • st.adjV (j + 1) + P.integ.aGradAPrev P.dt • st.adjA (j + 1)
        else F.gradA s.hist z j) = fa
      have hsum : ∑ k ∈ range j, (F.gradU s.hist z k ⬝ᵥ t.U k + F.gradV s.hist z k ⬝ᵥ t.V k +
          F.gradA s.hist z k ⬝ᵥ t.A k) + (fu ⬝ᵥ t.U j + fv ⬝ᵥ t.V j + fa ⬝ᵥ t.A j) +
          g ⬝ᵥ dz = F.along P.numSteps s.hist t z dz := by
        rw [← heq, ← hfu, ← hfv, ← hfa]
        by_cases hl : j ≠ P.numSteps - 1
        · simp only [if_pos hl, add_dotProduct]; ring
        · simp only [if_neg hl]; ring
      have hL := hs _ (st.adjU j) (conRhs 1 s.con
        (P.sysMat (s.hist.U j) (s.hist.V j) (s.hist.A j) z st.time)
        (-fu + P.integ.vGradU P.dt • fv + P.integ.aGradU P.dt • fa))
        (hr.det j st.time hj1 hjN)
      obtain ⟨hL0, hLs⟩ := (conSys_zero (fun i v hi => by rw [hr.zeroBc i v hi, mul_zero])).1 hL
      generalize P.solve (conMat s.con (P.sysMat (s.hist.U j) (s.hist.V j) (s.hist.A j) z st.time))
        (st.adjU j) (conRhs 1 s.con (P.sysMat (s.hist.U j) (s.hist.V j) (s.hist.A j) z st.time)
        (-fu + P.integ.vGradU P.dt • fv + P.integ.aGradU P.dt • fa)) = L at *
      rw [← HypProblem.sysMat_eq] at hLs
      have hm := ht.motion j hj1 hjN
      rw [hr.timeU j _ st.time, hr.timeV j _ st.time, hr.timeA j _ st.time,
        hr.timeZ j _ st.time] at hm
      have := hyp_adjoint_step hb hdt h2 (hr.symU j st.time) (hr.symV j st.time)
        (hr.symA j st.time) (ht.rel j hj1 hjN) (ht.fixed j hj1 hjN) hL0 hm hLs
      rw [this] at hsum
      rw [← hsum]
      simp only [add_dotProduct]
      ring)
  obtain ⟨-, -, hfin⟩ := key
  rw [i1, i2, i3] at hfin
  simp only [zero_add, sum_range_one, i1, i2, i3, dotProduct_zero, add_zero, ite_self] at hfin
  exact hfin

/-! ## Parabolic -/

/-- A history satisfies the linearised discrete equations of the parabolic problem. -/
structure ParTangent (P : ParProblem K ι ζ) (z dz : ζ → K) (h t : ParHist K ι) : Prop where
  init : t.U 0 = 0 ∧ t.V 0 = 0
  fixed : ∀ k, 1 ≤ k → k < P.numSteps → ∀ i v, P.con i = some v → t.U k i = 0
  rel : ∀ k, 1 ≤ k → k < P.numSteps →
    TrapezoidRel P.integ.alpha P.dt (t.U k) (t.U (k - 1)) (t.V k) (t.V (k - 1))
  motion : ∀ k : Nat, 1 ≤ k → k < P.numSteps → ∀ i, P.con i = none →
    (P.pde.gradU (h.U k) (h.V k) z *ᵥ t.U k + P.pde.gradV (h.U k) (h.V k) z *ᵥ t.V k +
      (P.pde.gradZ (h.U k) (h.V k) z)ᵀ *ᵥ dz) i = 0

/-- The change of the criterion along a tangent. -/
def ParCriterion.along (F : ParCriterion K ι ζ) (N : Nat) (h t : ParHist K ι) (z dz : ζ → K) : K :=
  ∑ k ∈ range N, (F.gradU h z k ⬝ᵥ t.U k + F.gradV h z k ⬝ᵥ t.V k) + F.gradZ h z ⬝ᵥ dz

/-- The system matrix of a step. -/
def ParProblem.sysMat (P : ParProblem K ι ζ) (u v : ι → K) (z : ζ → K) : Matrix ι ι K :=
  P.pde.gradU u v z + (1 / (P.integ.alpha * P.dt)) • P.pde.gradV u v z

omit [Fintype ι] [DecidableEq ι] [Fintype ζ] in
theorem ParProblem.sysMat_eq (P : ParProblem K ι ζ) (u v : ι → K) (z : ζ → K) :
    P.pde.gradU u v z + (-P.integ.vGradU P.dt) • P.pde.gradV u v z = P.sysMat u v z := by
  simp only [ParProblem.sysMat, Trapezoid.vGradU, neg_div, neg_neg]

/-- What the backward sweep of the parabolic problem needs. -/
structure ParProblem.AdjointReady (P : ParProblem K ι ζ) (z : ζ → K) (h : ParHist K ι) :
    Prop where
  symU : ∀ k i j, P.pde.gradU (h.U k) (h.V k) z i j = P.pde.gradU (h.U k) (h.V k) z j i
  symV : ∀ k i j, P.pde.gradV (h.U k) (h.V k) z i j = P.pde.gradV (h.U k) (h.V k) z j i
  det : ∀ k, 1 ≤ k → k < P.numSteps → IsUnit (conMat P.con (P.sysMat (h.U k) (h.V k) z)).det
  zeroBc : ∀ i v, P.con i = some v → v = 0

theorem par_adjoint_step {m : Trapezoid K} {dt : K} (ha : m.alpha ≠ 0) (hdt : dt ≠ 0)
    {con : Dirichlet K ι} {Ju Jv : Matrix ι ι K} {Rz : Matrix ζ ι K}
    (sU : ∀ i j, Ju i j = Ju j i) (sV : ∀ i j, Jv i j = Jv j i)
    {u v u' v' fu fv Lu : ι → K} {dz : ζ → K}
    (hrel : TrapezoidRel m.alpha dt u u' v v')
    (hu : ∀ i w, con i = some w → u i = 0) (hL : ∀ i w, con i = some w → Lu i = 0)
    (hm : ∀ i, con i = none → (Ju *ᵥ u + Jv *ᵥ v + Rzᵀ *ᵥ dz) i = 0)
    (hLs : ∀ i, con i = none → ((Ju + (-m.vGradU dt) • Jv) *ᵥ Lu) i =
      (-fu + m.vGradU dt • fv) i) :
    fu ⬝ᵥ u + fv ⬝ᵥ v =
      (m.vGradUPrev dt • (-(fv + Jv *ᵥ Lu))) ⬝ᵥ u' +
      (m.vGradVPrev dt • (-(fv + Jv *ᵥ Lu))) ⬝ᵥ v' + (Rz *ᵥ Lu) ⬝ᵥ dz := by
  have rv := (trapezoid_rel_iff ha hdt).1 hrel
  have ev := C28_derivatives (m := m) ha hdt (0 : ι → K) 0 0 0 u u' v v'
  have z1 : m.vValue (0 : ι → K) 0 0 0 dt = 0 := by funext i; simp [Trapezoid.vValue]
  simp only [zero_add, rv, z1] at ev
  have e1 := congrArg (fun x => (fv + Jv *ᵥ Lu) ⬝ᵥ x) ev
  have e3 : (Ju *ᵥ u + Jv *ᵥ v + Rzᵀ *ᵥ dz) ⬝ᵥ Lu = 0 := by
    rw [dot_congr_free (y := 0) hm hL, zero_dotProduct]
  have e4 := dot_congr_free hLs hu
  have s1 := dot_symm sU u Lu
  have s2 := dot_symm sV v Lu
  have s4 := dot_transpose Rz Lu dz
  rw [dotProduct_comm Lu] at s4
  have s5 := dotProduct_comm u (Ju *ᵥ Lu)
  have s6 := dotProduct_comm v (Jv *ᵥ Lu)
  simp only [dotProduct_add, add_dotProduct, dotProduct_smul, smul_dotProduct, neg_dotProduct,
    dotProduct_zero, smul_eq_mul, add_mulVec, smul_mulVec, smul_add, smul_neg] at e1 e3 e4 ⊢
  linear_combination -e1 - e3 + e4 + s1 + s2 - s4 + s5 + s6

/-- **C30**, parabolic problem, algebraic form. -/
theorem C30_parabolic_partial (P : ParProblem K ι ζ) (F : ParCriterion K ι ζ) (z dz : ζ → K)
    (h : ParHist K ι) (adj : (Nat → ι → K) × (Nat → ι → K)) (ha : P.integ.alpha ≠ 0)
    (hdt : P.dt ≠ 0) (hN : 1 ≤ P.numSteps) (hs : P.solve.Exact) (hr : P.AdjointReady z h)
    {t : ParHist K ι} (ht : ParTangent P z dz h t) :
    (P.criterionGradient F z h adj).2 ⬝ᵥ dz = F.along P.numSteps h t z dz := by
  obtain ⟨i1, i2⟩ := ht.init
  have key := loopDown_inv (body := P.backwardStep F z h)
    (fun j (q : ((Nat → ι → K) × (Nat → ι → K)) × (ζ → K)) =>
      ∑ k ∈ range (j + 1), (F.gradU h z k ⬝ᵥ t.U k + F.gradV h z k ⬝ᵥ t.V k) +
        (if j ≠ P.numSteps - 1 then
          (P.integ.vGradUPrev P.dt • q.1.2 (j + 1)) ⬝ᵥ t.U j +
          (P.integ.vGradVPrev P.dt • q.1.2 (j + 1)) ⬝ᵥ t.V j
        else 0) + q.2 ⬝ᵥ dz = F.along P.numSteps h t z dz)
    (P.numSteps - 1) (adj, F.gradZ h z)
    (by
      rw [if_neg (by simp), add_zero, ParCriterion.along,
        show P.numSteps - 1 + 1 = P.numSteps by omega])
    (by
      rintro j ⟨⟨aU, aV⟩, g⟩ hj1 hj heq
      have hjN : j < P.numSteps := by omega
      simp only at heq
      rw [if_pos (by omega), show j - 1 + 1 = j by omega]
      rw [sum_range_succ] at heq
      simp only [ParProblem.backwardStep, setStep, Function.update_self, ParProblem.sysMat_eq]
      generalize hfu : (if j ≠ P.numSteps - 1 then F.gradU h z j +
        P.integ.vGradUPrev P.dt • aV (j + 1) else F.gradU h z j) = fu
      generalize hfv : (if j ≠ P.numSteps - 1 then F.gradV h z j +
        P.integ.vGradVPrev P.dt • aV (j + 1) else F.gradV h z j) = fv
      have hsum : ∑ k ∈ range j, (F.gradU h z k ⬝ᵥ t.U k + F.gradV h z k ⬝ᵥ t.V k) +
          (fu ⬝ᵥ t.U j + fv ⬝ᵥ t.V j) + g ⬝ᵥ dz = F.along P.numSteps h t z dz := by
        rw [← heq, ← hfu, ← hfv]
        by_cases hl : j ≠ P.numSteps - 1
        · simp only [if_pos hl, add_dotProduct]; ring
        · simp only [if_neg hl]; ring
      have hL := hs _ (aU j) (conRhs 1 P.con (P.sysMat (h.U j) (h.V j) z)
        (-fu + P.integ.vGradU P.dt • fv)) (hr.det j hj1 hjN)
      obtain ⟨hL0, hLs⟩ := (conSys_zero (fun i v hi => by rw [hr.zeroBc i v hi, mul_zero])).1 hL
      generalize P.solve (conMat P.con (P.sysMat (h.U j) (h.V j) z)) (aU j)
        (conRhs 1 P.con (P.sysMat (h.U j) (h.V j) z) (-fu + P.integ.vGradU P.dt • fv)) = L at *
      rw [← ParProblem.sysMat_eq] at hLs
      have := par_adjoint_step ha hdt (hr.symU j) (hr.symV j) (ht.rel j hj1 hjN)
        (ht.fixed j hj1 hjN) hL0 (ht.motion j hj1 hjN) hLs
      rw [this] at hsum
      rw [← hsum]
      simp only [add_dotProduct]
      ring)
  simp only [zero_add, sum_range_one, i1, i2, dotProduct_zero, add_zero, ite_self] at key
  exact key

/-! ## Elliptic -/

/-- **C27**, algebraic form, for every prescribed boundary data and without any symmetry: the
gradient returned by `criterionGradient`, applied to a design direction, is the change of the
criterion along the linearised state `u'`. -/
theorem C27_criterionGradient (P : EllProblem K ι ζ) (F : EllCriterion K ι ζ) (z dz : ζ → K)
    (u adj u' : ι → K) (hs : P.solve.Exact) (hself : P.selfAdjoint = false)
    (hT : P.pde.gradUT u z = (P.pde.gradU u z)ᵀ)
    (hdet : IsUnit (conMat P.con (P.pde.gradU u z)).det)
    (hcon : ∀ i v, P.con i = some v → u' i = 0)
    (hlin : ∀ i, P.con i = none → (P.pde.gradU u z *ᵥ u' + (P.pde.gradZ u z)ᵀ *ᵥ dz) i = 0) :
    P.criterionGradient F z u adj ⬝ᵥ dz = F.gradU u z ⬝ᵥ u' + F.gradZ u z ⬝ᵥ dz := by
  simp only [EllProblem.criterionGradient, hself, Bool.false_eq_true, if_false, hT]
  set con0 : Dirichlet K ι := fun i => (P.con i).map fun _ => 0 with hc0
  have hmat : conMat con0 (P.pde.gradU u z)ᵀ = (conMat P.con (P.pde.gradU u z))ᵀ := by
    funext i j
    simp only [conMat, hc0, Option.isSome_map, transpose_apply, or_comm, eq_comm]
  have hd : IsUnit (conMat con0 (P.pde.gradU u z)ᵀ).det := by rwa [hmat, det_transpose]
  have hL := hs _ adj (conRhs 1 con0 (P.pde.gradU u z)ᵀ (-F.gradU u z)) hd
  have hz : ∀ i v, con0 i = some v → 1 * v = 0 := by
    intro i v hi
    simp only [hc0, Option.map_eq_some_iff] at hi
    obtain ⟨_, -, rfl⟩ := hi
    simp
  obtain ⟨hL0, hLs⟩ := (conSys_zero hz).1 hL
  set L := P.solve (conMat con0 (P.pde.gradU u z)ᵀ) adj
    (conRhs 1 con0 (P.pde.gradU u z)ᵀ (-F.gradU u z))
  have hL0' : ∀ i v, P.con i = some v → L i = 0 := by
    intro i v hi
    exact hL0 i 0 (by simp [hc0, hi])
  have hLs' : ∀ i, P.con i = none → ((P.pde.gradU u z)ᵀ *ᵥ L) i = (-F.gradU u z) i := by
    intro i hi
    exact hLs i (by simp [hc0, hi])
  have e1 := dot_congr_free hLs' hcon
  have e2 : (P.pde.gradU u z *ᵥ u' + (P.pde.gradZ u z)ᵀ *ᵥ dz) ⬝ᵥ L = 0 := by
    rw [dot_congr_free (y := 0) hlin hL0', zero_dotProduct]
  have e3 := dot_transpose (P.pde.gradZ u z) L dz
  have e4 := dot_transpose (P.pde.gradU u z) u' L
  rw [dotProduct_comm u'] at e4
  rw [dotProduct_comm L] at e3
  simp only [add_dotProduct, neg_dotProduct] at e1 e2 ⊢
  linear_combination e3 + e2 - e4 - e1

/-- **C27** for configuration variables (`criterionGradientX`): needs a symmetric derivative matrix
and zero prescribed values. -/
theorem C27_criterionGradientX_partial (P : EllProblem K ι ζ) (F : EllCriterion K ι ζ)
    (z dz : ζ → K) (u adj u' : ι → K) (hs : P.solve.Exact) (hself : P.selfAdjoint = false)
    (hsym : ∀ i j, P.pde.gradU u z i j = P.pde.gradU u z j i)
    (hz : ∀ i v, P.con i = some v → v = 0)
    (hdet : IsUnit (conMat P.con (P.pde.gradU u z)).det)
    (hcon : ∀ i v, P.con i = some v → u' i = 0)
    (hlin : ∀ i, P.con i = none → (P.pde.gradU u z *ᵥ u' + (P.pde.gradZ u z)ᵀ *ᵥ dz) i = 0) :
    P.criterionGradientX F z u adj ⬝ᵥ dz = F.gradU u z ⬝ᵥ u' + F.gradZ u z ⬝ᵥ dz := by
  simp only [EllProblem.criterionGradientX, hself, Bool.false_eq_true, if_false]
  have hL := hs _ adj (conRhs 1 P.con (P.pde.gradU u z) (-F.gradU u z)) hdet
  obtain ⟨hL0, hLs⟩ := (conSys_zero (fun i v hi => by rw [hz i v hi, mul_zero])).1 hL
  set L := P.solve (conMat P.con (P.pde.gradU u z)) adj
    (conRhs 1 P.con (P.pde.gradU u z) (-F.gradU u z))
  have e1 := dot_congr_free hLs hcon
  have e2 : (P.pde.gradU u z *ᵥ u' + (P.pde.gradZ u z)ᵀ *ᵥ dz) ⬝ᵥ L = 0 := by
    rw [dot_congr_free (y := 0) hlin hL0, zero_dotProduct]
  have e3 := dot_transpose (P.pde.gradZ u z) L dz
  have e4 := dot_symm hsym u' L
  rw [dotProduct_comm u'] at e4
  rw [dotProduct_comm L] at e3
  simp only [add_dotProduct, neg_dotProduct] at e1 e2 ⊢
  linear_combination e3 + e2 - e4 - e1

end Plato
