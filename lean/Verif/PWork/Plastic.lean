import Verif.PWork.Steps

/-!
# Plastic work
-/

namespace Plato.PWork
open Finset Plato Plato.Mech Plato.J2 Plato.Plast

/-! ## At a material point -/

/-- The product with a unit tensor is bounded by the norm. -/
theorem neg_nrm_le (A : Tensor) {N : Tensor} (hN : nrm N = 1) : -nrm A ≤ dot A N := by
  rcases (nrm_nonneg A).lt_or_eq with h | h
  · have h1 : 0 ≤ dot (A + nrm A • N) (A + nrm A • N) := by rw [dot_self]; positivity
    have h2 : dot (A + nrm A • N) (A + nrm A • N) = dot A A + 2 * nrm A * dot A N + nrm A ^ 2 * dot N N := by
      rw [dot_add, dot_comm A, dot_comm (nrm A • N), dot_add, dot_add, dot_smul, dot_comm (A : Tensor) (nrm A • N),
        dot_smul, dot_smul, dot_comm N A, dot_comm N (nrm A • N), dot_smul]
      ring
    rw [h2, dot_self, dot_self, hN] at h1
    nlinarith
  · have := nrm_eq_zero h.symm
    rw [← h, this]
    simp [dot]

/-- Against a deviatoric tensor Hooke's stress is the deviatoric one. -/
theorem hooke_dev (K mu : ℝ) (E : Tensor) {N : Tensor} (hN : N.trace = 0) :
    dot (hooke K mu E) N = dot ((2 * mu) • deviator E) N := by
  rw [dot_hooke, hN, dot_smul]
  have : dot (deviator E) N = dot E N := by
    unfold deviator
    have : dot (E - (E.trace / 3) • (1 : Tensor)) N = dot E N - E.trace / 3 * N.trace := by
      unfold dot Matrix.trace
      simp only [Fin.sum_univ_three, Matrix.sub_apply, Matrix.smul_apply, Matrix.one_apply, smul_eq_mul, Matrix.diag_apply]
      simp
      ring
    rw [this, hN, mul_zero, sub_zero]
  rw [this]
  ring

/-- **Work of the mean stress in a step of plasticity** without kinematic hardening, from the conditions of the step
alone: not less than minus half of the increment times what the yield function had exceeded zero before. -/
theorem step_work {m : Mat} (hm : m.Ok) {tol : ℝ} {E0 E1 : Tensor} {p q : Point} (hp : p.Ok)
    (hq : Returned m tol E1 p q) (hH : m.H = 0) (hb : p.back = 0) {e : ℝ} (he : 0 ≤ e) (hf : m.f E0 p ≤ e) :
    -(e / 2 * q.inc) ≤ dot ((1 / 2 : ℝ) • ((2 * m.mu) • deviator (E1 - q.ep) + (2 * m.mu) • deviator (E0 - p.ep)))
      (q.ep - p.ep) := by
  have hs := s32_pos
  obtain ⟨N, hN, hep, hbk⟩ := hq.flow
  have hbq : q.back = 0 := by rw [hbk, hH, hb]; simp
  have o1 : m.over E1 q = (2 * m.mu) • deviator (E1 - q.ep) := by unfold Mat.over; rw [hbq, sub_zero]
  have o0 : m.over E0 p = (2 * m.mu) • deviator (E0 - p.ep) := by unfold Mat.over; rw [hb, sub_zero]
  rw [← o1, ← o0]
  have hde : q.ep - p.ep = (√(3 / 2) * q.inc) • N := by rw [hep]; abel
  rw [hde]
  rcases hq.inc.lt_or_eq with h0 | h0
  · obtain ⟨htr, hN1, hn⟩ := hq.unit hm hp h0 hN hbk
    have h1 : dot (m.over E1 q) N = nrm (m.over E1 q) := by
      conv_lhs => rw [hN]
      rw [dot_smul, dot_self, hN1]
      ring
    have h2 := neg_nrm_le (m.over E0 p) hN1
    have f1 := hq.consistent h0
    unfold Mat.f at f1 hf
    rw [hq.acc] at f1
    have hK : 0 ≤ m.K * q.inc := mul_nonneg hm.K h0.le
    have e1 : dot ((1 / 2 : ℝ) • (m.over E1 q + m.over E0 p)) ((√(3 / 2) * q.inc) • N) =
        q.inc / 2 * (√(3 / 2) * nrm (m.over E1 q) + √(3 / 2) * dot (m.over E0 p) N) := by
      rw [dot_smul, dot_comm, dot_smul, dot_comm, dot_add, h1]
      ring
    rw [e1]
    have h3 : -(√(3 / 2) * nrm (m.over E0 p)) ≤ √(3 / 2) * dot (m.over E0 p) N := by
      rw [← mul_neg]
      exact mul_le_mul_of_nonneg_left h2 hs.le
    have h4 : -e ≤ √(3 / 2) * nrm (m.over E1 q) + √(3 / 2) * dot (m.over E0 p) N := by
      have : m.K * (p.acc + q.inc) = m.K * p.acc + m.K * q.inc := by ring
      linarith
    have := mul_le_mul_of_nonneg_left h4 (show 0 ≤ q.inc / 2 by linarith)
    linarith
  · rw [← h0]
    simp [dot]

/-! ## C77: plastic work -/

section Value
variable {M : FeModel} (hM : M.Ok) {P : Nat → WorkCrit ℝ} (hJ : WOk M P) {A : Args ℝ} (hA : A.Ok M (localDofs M.dim))
  {r : Run} (hr : r.Ok M)
include hM hJ hA hr

/-- **C77, value**: the plastic work criterion of a step is the work of the mean of Hooke's stresses on the change of
the plastic strain, if the change of the plastic strain is deviatoric; in two dimensions always. -/
theorem C77_value (hp : ∀ k, k < M.domains.length → (P k).plastic = true)
    (ht : M.dim = 2 ∨ EachCell M fun _ cell => ((stateOf M A.c cell).ep - (stateOf M A.cp cell).ep).trace = 0) (mult : ℝ) :
    workValue M P mult r A = .ok (mult * cellSum M fun k cell => volume M P A k cell *
      dot (meanStress M P A k cell) ((stateOf M A.c cell).ep - (stateOf M A.cp cell).ep)) := by
  rw [workValue_ok hM hJ hA hr]
  congr 2
  exact cellSum_congr fun k hk cell hc => plastic_cell hJ hk cell (hp k hk) (ht.imp id fun h => h k hk cell hc)

/-- **C77, elastic step**: a step that changes no plastic strain has no plastic work. -/
theorem C77_elastic (hp : ∀ k, k < M.domains.length → (P k).plastic = true)
    (hc : EachCell M fun _ cell => (stateOf M A.c cell).ep = (stateOf M A.cp cell).ep) (mult : ℝ) :
    workValue M P mult r A = .ok 0 := by
  rw [C77_value hM hJ hA hr hp (.inr fun k hk cell h => by dsimp only; rw [hc k hk cell h]; simp)]
  rw [cellSum_congr (g := fun _ _ => 0)]
  · simp [cellSum]
  · intro k hk cell h
    rw [hc k hk cell h]
    simp [dot]

/-- **C77, sum of the works**: in two dimensions the elastic and the plastic work of a step add up to the work of the
mean stress on the change of the strain that is not thermal. -/
theorem C77_total (h2 : M.dim = 2) (r' : Run) (hr' : r'.Ok M) (mult : ℝ) :
    ∃ a b, workValue M (fun k => { P k with plastic := false }) mult r A = .ok a ∧
      workValue M (fun k => { P k with plastic := true }) mult r' A = .ok b ∧
      a + b = mult * cellSum M fun k cell => volume M P A k cell * dot (meanStress M P A k cell)
        (strainOf M (fun k => (P k).mat) A k cell - strainOf M (fun k => (P k).mat) (old A) k cell) := by
  have hJ1 : WOk M fun k => { P k with plastic := false } := hJ
  have hJ2 : WOk M fun k => { P k with plastic := true } := hJ
  refine ⟨_, _, workValue_ok hM hJ1 hA hr mult, workValue_ok hM hJ2 hA hr' mult, ?_⟩
  rw [← mul_add, ← cellSum_add]
  congr 1
  refine cellSum_congr fun k hk cell _ => ?_
  rw [elastic_cell hJ1 hk cell rfl h2, plastic_cell hJ2 hk cell rfl (.inl h2)]
  have e1 : meanStress M (fun k => { P k with plastic := false }) A k cell = meanStress M P A k cell := rfl
  have e2 : meanStress M (fun k => { P k with plastic := true }) A k cell = meanStress M P A k cell := rfl
  have e3 : volume M (fun k => { P k with plastic := false }) A k cell = volume M P A k cell := rfl
  have e4 : volume M (fun k => { P k with plastic := true }) A k cell = volume M P A k cell := rfl
  have e5 : elasticTensor M (fun k => { P k with plastic := false }) A k cell = elasticTensor M P A k cell := rfl
  have e6 : elasticTensor M (fun k => { P k with plastic := false }) (old A) k cell = elasticTensor M P (old A) k cell := rfl
  rw [e1, e2, e3, e4, e5, e6, ← mul_add]
  congr 1
  unfold elasticTensor old
  simp only [dot_sub]
  ring

end Value

/-! ## C77: dissipation -/

/-- The states of the steps are those of the update of the local states. -/
def Updated (M : FeModel) (P : Nat → J2 ℝ) (steps : Nat) (us cs : List (List ℝ)) (z x : List ℝ) : Prop :=
  ∀ k, k < steps → ∃ (ord : Nat → List Nat) (sch : Nat → Nat → List Nat) (c : List ℝ), OrdOk M ord ∧ LSched M sch ∧
    c.length = M.nc * localDofs M.dim ∧
    j2Update M P ord sch { after M (localDofs M.dim) us cs z x (k + 1) with c := c } = .ok (cs.getD k [])

/-- Ratio of the penalties of the criterion and of the local equations. -/
noncomputable def ratio (M : FeModel) (P : Nat → WorkCrit ℝ) (A : Args ℝ) (k cell : Nat) : ℝ :=
  penalty M P A k cell / (P k).mat.penE (meanDensity ((P k).mat.d + 1) (numbers M A cell).z)

section Dissipation
variable {M : FeModel} (hM : M.Ok) (hB : Blocks M) {P : Nat → WorkCrit ℝ} (hJ : WOk M P)
  (hc : Consts M fun k => (P k).mat) {steps : Nat} {us cs : List (List ℝ)} {z x : List ℝ}
  (h : Steps M (localDofs M.dim) steps us cs z x)
  (hm : EachCell M fun k cell => (matOf M (fun k => (P k).mat) (after M (localDofs M.dim) us cs z x 0) k cell).Ok ∧
    (matOf M (fun k => (P k).mat) (after M (localDofs M.dim) us cs z x 0) k cell).H = 0)
  (hup : Updated M (fun k => (P k).mat) steps us cs z x)
include hM hB hJ hc h hm hup

omit hm hup hB hJ hc h hM in
theorem mat_after (j k cell : Nat) : matOf M (fun k => (P k).mat) (after M (localDofs M.dim) us cs z x j) k cell =
    matOf M (fun k => (P k).mat) (after M (localDofs M.dim) us cs z x 0) k cell := by
  cases j <;> rfl

omit hm hup hB hJ hc h hM in
theorem cp_after (j : Nat) : (after M (localDofs M.dim) us cs z x (j + 1)).cp = (after M (localDofs M.dim) us cs z x j).c :=
  (old_after j).2

omit hm hup hB hJ hc h hM in
theorem strain_old (j k cell : Nat) :
    strainOf M (fun k => (P k).mat) (old (after M (localDofs M.dim) us cs z x (j + 1))) k cell =
      strainOf M (fun k => (P k).mat) (after M (localDofs M.dim) us cs z x j) k cell := by
  cases j with
  | zero => rfl
  | succ j => simp only [strainOf, numbers, cellData, old, after, Nat.add_eq_zero_iff, one_ne_zero, and_false, if_false,
      Nat.add_sub_cancel]

/-- What a step does in a cell, if the states before it are admissible. -/
theorem step_returned {j : Nat} (hj : j < steps)
    (h0 : EachCell M fun _ cell => (stateOf M (after M (localDofs M.dim) us cs z x j).c cell).Ok) : EachCell M fun k cell =>
    Returned (matOf M (fun k => (P k).mat) (after M (localDofs M.dim) us cs z x 0) k cell) tolerance
      (strainOf M (fun k => (P k).mat) (after M (localDofs M.dim) us cs z x (j + 1)) k cell)
      (stateOf M (after M (localDofs M.dim) us cs z x j).c cell)
      (stateOf M (after M (localDofs M.dim) us cs z x (j + 1)).c cell) := by
  obtain ⟨ord, sch, c, ho, hs, hlen, hu⟩ := hup j hj
  have hA := after_ok h (k := j + 1) hj
  have hA' : ({ after M (localDofs M.dim) us cs z x (j + 1) with c := c } : Args ℝ).Ok M (localDofs M.dim) :=
    ⟨hA.u, hA.up, hlen, hA.cp, hA.z, hA.x⟩
  obtain ⟨c', e, -, h1, -⟩ := C63_update hM hB hJ hc hA' (fun k hk cell hcell => by
    have := (hm k hk cell hcell).1
    exact this) (fun k hk cell hcell => by
    have := h0 k hk cell hcell
    dsimp only
    rw [cp_after]
    exact this) ho hs
  rw [hu] at e
  cases e
  intro k hk cell hcell
  have := h1 k hk cell hcell
  dsimp only at this
  rw [cp_after] at this
  exact this

/-- What every step keeps. -/
theorem step_facts (j : Nat) (hj : j ≤ steps) : EachCell M fun k cell =>
    (stateOf M (after M (localDofs M.dim) us cs z x j).c cell).Ok ∧
    (stateOf M (after M (localDofs M.dim) us cs z x j).c cell).back = 0 ∧
    (matOf M (fun k => (P k).mat) (after M (localDofs M.dim) us cs z x 0) k cell).f
      (strainOf M (fun k => (P k).mat) (after M (localDofs M.dim) us cs z x j) k cell)
      (stateOf M (after M (localDofs M.dim) us cs z x j).c cell) ≤ tolerance := by
  induction j with
  | zero =>
    intro k hk cell hcell
    have e := elastic_start hJ (us := us) (cs := cs) (z := z) (x := x) hk cell
    rw [state_start hJ] at *
    unfold elasticTensor at e
    rw [state_start hJ] at e
    refine ⟨⟨le_rfl, by simp, by simp⟩, rfl, ?_⟩
    unfold Mat.f Mat.over
    rw [e]
    have hd : ∀ t : ℝ, deviator (t • (1 : Tensor)) = 0 := by
      intro t
      unfold deviator
      ext i j
      fin_cases i <;> fin_cases j <;> simp [Matrix.trace, Fin.sum_univ_three] <;> ring
    rw [hd]
    have := (hm k hk cell hcell).1.sy
    have := tolerance_nonneg
    simp [nrm]
    linarith
  | succ j ih =>
    have ih := ih (by omega)
    have hr := step_returned hM hB hJ hc h hm hup (j := j) hj fun k hk cell hcell => (ih k hk cell hcell).1
    intro k hk cell hcell
    have r := hr k hk cell hcell
    obtain ⟨m1, m2⟩ := hm k hk cell hcell
    obtain ⟨i1, i2, -⟩ := ih k hk cell hcell
    obtain ⟨N, -, -, hb⟩ := r.flow
    exact ⟨(returned_facts m1 i1 r).1, by rw [hb, m2, i2]; simp, r.admissible⟩

/-- Plastic work of a step in a cell. -/
theorem step_cell {j : Nat} (hj : j < steps) (hpos : EachCell M fun k cell =>
      0 ≤ ratio M P (after M (localDofs M.dim) us cs z x 0) k cell) : EachCell M fun k cell =>
    -(tolerance / 2 * (ratio M P (after M (localDofs M.dim) us cs z x 0) k cell *
      ((stateOf M (after M (localDofs M.dim) us cs z x (j + 1)).c cell).acc -
        (stateOf M (after M (localDofs M.dim) us cs z x j).c cell).acc))) ≤
    dot (meanStress M P (after M (localDofs M.dim) us cs z x (j + 1)) k cell)
      ((stateOf M (after M (localDofs M.dim) us cs z x (j + 1)).c cell).ep -
        (stateOf M (after M (localDofs M.dim) us cs z x j).c cell).ep) := by
  intro k hk cell hcell
  have f0 := step_facts hM hB hJ hc h hm hup j (by omega)
  have r := step_returned hM hB hJ hc h hm hup hj (fun k hk cell hcell => (f0 k hk cell hcell).1) k hk cell hcell
  obtain ⟨m1, m2⟩ := hm k hk cell hcell
  obtain ⟨p1, p2, p3⟩ := f0 k hk cell hcell
  have q1 := (step_facts hM hB hJ hc h hm hup (j + 1) hj k hk cell hcell).1
  have key := step_work m1 p1 r m2 p2 tolerance_nonneg p3
  have hpos := hpos k hk cell hcell
  dsimp only at r p1 p2 p3 q1 key hpos ⊢
  have htr : ((stateOf M (after M (localDofs M.dim) us cs z x (j + 1)).c cell).ep -
      (stateOf M (after M (localDofs M.dim) us cs z x j).c cell).ep).trace = 0 := by
    rw [Matrix.trace_sub, q1.ep, p1.ep, sub_zero]
  have hacc := r.acc
  set q := stateOf M (after M (localDofs M.dim) us cs z x (j + 1)).c cell with hq
  set p := stateOf M (after M (localDofs M.dim) us cs z x j).c cell with hp
  have hmu : penalty M P (after M (localDofs M.dim) us cs z x (j + 1)) k cell * (P k).mat.shear =
      ratio M P (after M (localDofs M.dim) us cs z x 0) k cell *
        (matOf M (fun k => (P k).mat) (after M (localDofs M.dim) us cs z x 0) k cell).mu := by
    have h1 := m1.mu
    unfold ratio
    unfold matOf J2.mat at h1 ⊢
    dsimp only at h1 ⊢
    have h2 : (P k).mat.penE (meanDensity ((P k).mat.d + 1) (numbers M (after M (localDofs M.dim) us cs z x 0) cell).z) ≠ 0 := by
      intro h0
      rw [h0, zero_mul] at h1
      exact lt_irrefl _ h1
    rw [← mul_assoc, div_mul_cancel₀ _ h2]
    rfl
  have e1 : stress M P (after M (localDofs M.dim) us cs z x (j + 1)) k cell =
      hooke (penalty M P (after M (localDofs M.dim) us cs z x (j + 1)) k cell * (P k).bulk)
        (penalty M P (after M (localDofs M.dim) us cs z x (j + 1)) k cell * (P k).mat.shear)
        (strainOf M (fun k => (P k).mat) (after M (localDofs M.dim) us cs z x (j + 1)) k cell - q.ep) := rfl
  have e0 : stress M P (old (after M (localDofs M.dim) us cs z x (j + 1))) k cell =
      hooke (penalty M P (after M (localDofs M.dim) us cs z x (j + 1)) k cell * (P k).bulk)
        (penalty M P (after M (localDofs M.dim) us cs z x (j + 1)) k cell * (P k).mat.shear)
        (strainOf M (fun k => (P k).mat) (after M (localDofs M.dim) us cs z x j) k cell - p.ep) := by
    unfold stress elasticTensor
    rw [strain_old]
    have : (old (after M (localDofs M.dim) us cs z x (j + 1))).c = (after M (localDofs M.dim) us cs z x j).c := (old_after j).2
    rw [this]
    rfl
  have e : dot (meanStress M P (after M (localDofs M.dim) us cs z x (j + 1)) k cell) (q.ep - p.ep) =
      ratio M P (after M (localDofs M.dim) us cs z x 0) k cell * dot ((1 / 2 : ℝ) •
        ((2 * (matOf M (fun k => (P k).mat) (after M (localDofs M.dim) us cs z x 0) k cell).mu) •
          deviator (strainOf M (fun k => (P k).mat) (after M (localDofs M.dim) us cs z x (j + 1)) k cell - q.ep) +
        (2 * (matOf M (fun k => (P k).mat) (after M (localDofs M.dim) us cs z x 0) k cell).mu) •
          deviator (strainOf M (fun k => (P k).mat) (after M (localDofs M.dim) us cs z x j) k cell - p.ep)))
        (q.ep - p.ep) := by
    unfold meanStress
    rw [e1, e0, hmu, dot_smul, dot_add, hooke_dev _ _ _ htr, hooke_dev _ _ _ htr, dot_smul, dot_smul, dot_smul, dot_add,
      dot_smul, dot_smul]
    ring
  rw [e]
  have hi : q.acc - p.acc = q.inc := by rw [hacc]; ring
  rw [hi]
  have := mul_le_mul_of_nonneg_left key hpos
  linarith

/-- **C77, dissipation**: along every history whose local states are those of the update of the local states, without
kinematic hardening, the plastic work criterion is not negative up to the tolerance of the yield condition: it is at
least minus half of the tolerance times the plastic strain accumulated at the end, weighted by volume and by the ratio
of the penalties.  In any dimension and for any penalties. -/
theorem C77_dissipation (hp : ∀ k, k < M.domains.length → (P k).plastic = true)
    (hpos : EachCell M fun k cell => 0 ≤ ratio M P (after M (localDofs M.dim) us cs z x 0) k cell ∧
      0 ≤ volume M P (after M (localDofs M.dim) us cs z x 0) k cell) {mult : ℝ} (hmu : 0 ≤ mult) {rs : Nat → Run}
    (hrs : ∀ k, k < steps → (rs k).Ok M) :
    (problemValue M P mult rs steps us cs z x).Sat fun v =>
      -(mult * (tolerance / 2 * cellSum M fun k cell => volume M P (after M (localDofs M.dim) us cs z x 0) k cell *
        (ratio M P (after M (localDofs M.dim) us cs z x 0) k cell *
          (stateOf M (after M (localDofs M.dim) us cs z x steps).c cell).acc))) ≤ v := by
  have hv : ∀ j k cell, volume M P (after M (localDofs M.dim) us cs z x j) k cell =
      volume M P (after M (localDofs M.dim) us cs z x 0) k cell := by
    intro j k cell
    cases j <;> rfl
  have hval : ∀ j, j < steps → workValue M P mult (rs j) (after M (localDofs M.dim) us cs z x (j + 1)) =
      .ok (mult * cellSum M fun k cell => volume M P (after M (localDofs M.dim) us cs z x 0) k cell *
        dot (meanStress M P (after M (localDofs M.dim) us cs z x (j + 1)) k cell)
          ((stateOf M (after M (localDofs M.dim) us cs z x (j + 1)).c cell).ep -
            (stateOf M (after M (localDofs M.dim) us cs z x j).c cell).ep)) := by
    intro j hj
    rw [C77_value hM hJ (after_ok h hj) (hrs j hj) hp (.inr fun k hk cell hcell => ?_)]
    · rw [cp_after]
      rfl
    · dsimp only
      rw [cp_after, Matrix.trace_sub, (step_facts hM hB hJ hc h hm hup (j + 1) hj k hk cell hcell).1.ep,
        (step_facts hM hB hJ hc h hm hup j (by omega) k hk cell hcell).1.ep, sub_zero]
  unfold problemValue
  rw [evaluateCriterion_ok h hval, Res.sat_ok]
  have hstep : ∀ j ∈ range steps, mult * (cellSum M (fun k cell =>
        -(tolerance / 2 * (volume M P (after M (localDofs M.dim) us cs z x 0) k cell *
          (ratio M P (after M (localDofs M.dim) us cs z x 0) k cell *
            (stateOf M (after M (localDofs M.dim) us cs z x (j + 1)).c cell).acc)))) -
      cellSum M (fun k cell =>
        -(tolerance / 2 * (volume M P (after M (localDofs M.dim) us cs z x 0) k cell *
          (ratio M P (after M (localDofs M.dim) us cs z x 0) k cell *
            (stateOf M (after M (localDofs M.dim) us cs z x j).c cell).acc))))) ≤
      mult * cellSum M fun k cell => volume M P (after M (localDofs M.dim) us cs z x 0) k cell *
        dot (meanStress M P (after M (localDofs M.dim) us cs z x (j + 1)) k cell)
          ((stateOf M (after M (localDofs M.dim) us cs z x (j + 1)).c cell).ep -
            (stateOf M (after M (localDofs M.dim) us cs z x j).c cell).ep) := by
    intro j hj
    refine mul_le_mul_of_nonneg_left ?_ hmu
    rw [← cellSum_sub, ← sub_nonneg, ← cellSum_sub]
    refine cellSum_nonneg fun k hk cell hcell => ?_
    have key := step_cell hM hB hJ hc h hm hup (mem_range.1 hj) (fun k hk cell hcell => (hpos k hk cell hcell).1) k hk cell hcell
    have := mul_le_mul_of_nonneg_left key (hpos k hk cell hcell).2
    linarith
  refine le_trans (le_of_eq ?_) (sum_le_sum hstep)
  rw [← mul_sum, sum_range_sub fun j => cellSum M (fun k cell =>
        -(tolerance / 2 * (volume M P (after M (localDofs M.dim) us cs z x 0) k cell *
          (ratio M P (after M (localDofs M.dim) us cs z x 0) k cell *
            (stateOf M (after M (localDofs M.dim) us cs z x j).c cell).acc))))]
  have h0 : cellSum M (fun k cell =>
        -(tolerance / 2 * (volume M P (after M (localDofs M.dim) us cs z x 0) k cell *
          (ratio M P (after M (localDofs M.dim) us cs z x 0) k cell *
            (stateOf M (after M (localDofs M.dim) us cs z x 0).c cell).acc)))) = 0 := by
    unfold cellSum
    refine sum_eq_zero fun k _ => sum_eq_zero fun c _ => ?_
    dsimp only
    rw [state_start hJ]
    simp
  rw [h0, sub_zero, ← mul_neg]
  congr 1
  unfold cellSum
  simp only [mul_sum, sum_neg_distrib]

end Dissipation

end Plato.PWork
