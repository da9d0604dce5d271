import Verif.Crit.AugLag
import Verif.Crit.ElasticProps
import Verif.Mech.LoadFalse
import Mathlib.LinearAlgebra.Matrix.Trace
import Mathlib.LinearAlgebra.Matrix.Notation
import Mathlib.Algebra.BigOperators.Fin

/-!
# C38: inputs and mass multipliers; C54: the von Mises measure; C55: the normalisation of the mass
-/

namespace Plato.Crit
open Finset Plato Plato.Mech Matrix

/-! ## C38: what the inputs can break -/

/-- A new object is the start of a history: the hypotheses of `C38_history` on inputs. -/
theorem AugLag.new_ok (m : PenaltyData) (limit penalty bound expansion lam0 : ℝ) (nelems : Nat) (hp : 0 ≤ penalty)
    (hb : 0 ≤ bound) (he : 0 ≤ expansion) (h0 : 0 ≤ m.minValue) (h1 : m.minValue ≤ 1) :
    (AugLag.new m limit penalty bound expansion lam0 nelems).Ok nelems :=
  ⟨List.length_replicate, hp, hb, he, h0, h1⟩

/-- **C38 refuted before the first update**: the inputs are not clamped. -/
theorem C38_start_false (m : PenaltyData) : ¬ ∀ limit penalty bound expansion lam0 : ℝ, 0 < limit → 0 < penalty →
    0 < bound → 1 < expansion → ∀ n, (AugLag.new m limit penalty bound expansion lam0 n).penalty ≤
      (AugLag.new m limit penalty bound expansion lam0 n).bound := by
  intro h
  have := h 1 2 1 2 0 (by norm_num) (by norm_num) (by norm_num) (by norm_num) 1
  simp only [AugLag.new] at this
  norm_num at this

/-! ## C38: mass multipliers -/

section Mass
variable {m : PenaltyData} {lower expansion bound reduction : ℝ}

/-- The Lagrange multiplier of a cell: not negative after an update, and not smaller than before. -/
theorem C38_stress_multiplier (h0 : 0 ≤ m.minValue) (h1 : m.minValue ≤ 1) {penalty upper over rho : ℝ}
    (hp : 0 ≤ penalty) (hr : 0 ≤ rho) (s : StressCell) :
    0 ≤ (stressUpdateCell m penalty lower upper over rho s).lam ∧
      s.lam ≤ (stressUpdateCell m penalty lower upper over rho s).lam := by
  refine ⟨le_max_right _ _, le_max_of_le_left ?_⟩
  have hs : 0 ≤ Plato.simp m rho := by
    unfold Plato.simp
    nlinarith [mul_nonneg (sub_nonneg.2 h1) (Real.rpow_nonneg hr m.penalty)]
  have hc : (0 : ℝ) ≤ if over > 1 then Plato.simp m rho * (over - 1) * (over - 1) else 0 := by
    split_ifs
    · rw [mul_assoc]
      exact mul_nonneg hs (mul_self_nonneg _)
    · exact le_rfl
  have := mul_nonneg hp (hc.trans (le_max_left _ (-1 * s.lam / penalty)))
  linarith

/-- What holds along every history when the lower bound is zero, as by default. -/
theorem C38_mass_range (hred0 : 0 ≤ reduction) (hred : reduction ≤ 1) (l : List (ℝ × ℝ)) (c : StressCell)
    (p : ℝ × ℝ) (h0 : 0 ≤ c.mass) {u : ℝ} (hu : c.mass ≤ u) (hp0 : 0 ≤ p.2) (hp : p.2 ≤ u) :
    0 ≤ (stressUpdates m 0 expansion bound reduction l (c, p)).1.mass ∧
      (stressUpdates m 0 expansion bound reduction l (c, p)).1.mass ≤ u := by
  induction l generalizing c p with
  | nil => exact ⟨h0, hu⟩
  | cons q l ih =>
    obtain ⟨over, rho⟩ := q
    unfold stressUpdates
    refine ih _ _ ?_ ?_ (mul_nonneg hp0 hred0) ((mul_le_of_le_one_right hp0 hred).trans hp)
    · unfold stressUpdateCell
      dsimp only
      split_ifs
      · exact le_max_right _ _
      · exact le_min (by linarith) hp0
    · unfold stressUpdateCell
      dsimp only
      split_ifs
      · exact max_le (by linarith) (h0.trans hu)
      · exact (min_le_right _ _).trans hp

/-- **C38 refuted for the mass multipliers**: with the default inputs the multiplier exceeds the upper bound the
object reports after one update, since the bound is reduced after it was applied. -/
theorem C38_mass_upper_false (m : PenaltyData) :
    ¬ ∀ (l : List (ℝ × ℝ)) (c : StressCell) (p : ℝ × ℝ), 0 ≤ c.mass → c.mass ≤ p.2 →
    (stressUpdates m 0 (105 / 100) 100 (95 / 100) l (c, p)).1.mass ≤
      (stressUpdates m 0 (105 / 100) 100 (95 / 100) l (c, p)).2.2 := by
  intro h
  have := h [(0, 1)] ⟨0, 2⟩ (1 / 10, 4) (by norm_num) (by norm_num)
  simp only [stressUpdates, stressUpdateCell, stressUpdatePenalty] at this
  norm_num at this

/-- **C38 refuted for the mass multipliers**: a positive lower bound does not hold along a history, since the
upper bound shrinks below it. -/
theorem C38_mass_lower_false (m : PenaltyData) :
    ¬ ∀ (l : List (ℝ × ℝ)) (c : StressCell) (p : ℝ × ℝ), 1 ≤ c.mass → c.mass ≤ p.2 →
    1 ≤ (stressUpdates m 1 (105 / 100) 100 (1 / 2) l (c, p)).1.mass := by
  intro h
  have := h [(0, 1), (0, 1)] ⟨0, 1⟩ (1 / 10, 1) (by norm_num) (by norm_num)
  simp only [stressUpdates, stressUpdateCell, stressUpdatePenalty] at this
  norm_num at this

end Mass

/-! ## C54: the von Mises measure -/

/-- Components of a symmetric tensor in Voigt order. -/
def voigt3 (S : Matrix (Fin 3) (Fin 3) ℝ) : Nat → ℝ
  | 0 => S 0 0
  | 1 => S 1 1
  | 2 => S 2 2
  | 3 => S 1 2
  | 4 => S 0 2
  | 5 => S 0 1
  | _ => 0

/-- Components of a symmetric plane tensor in Voigt order. -/
def voigt2 (S : Matrix (Fin 2) (Fin 2) ℝ) : Nat → ℝ
  | 0 => S 0 0
  | 1 => S 1 1
  | 2 => S 0 1
  | _ => 0

/-- **C54**: the measure of a symmetric tensor is a function of two invariants. -/
theorem C54_invariants3 {S : Matrix (Fin 3) (Fin 3) ℝ} (hS : S.transpose = S) :
    vonMisesForm Real.sqrt (1 / 2) 3 (voigt3 S) =
      Real.sqrt (3 / 2 * (S * S).trace - 1 / 2 * S.trace ^ 2) := by
  have e : ∀ i j, S j i = S i j := fun i j => congrFun (congrFun hS i) j
  unfold vonMisesForm radicand
  simp only [voigt3, if_true, show (3 : Nat) ≠ 1 by decide, if_false]
  congr 1
  simp only [Matrix.trace, Matrix.diag, Matrix.mul_apply, Fin.sum_univ_three]
  rw [e 0 1, e 0 2, e 1 2]
  ring

/-- **C54** in the plane (plane stress). -/
theorem C54_invariants2 {S : Matrix (Fin 2) (Fin 2) ℝ} (hS : S.transpose = S) :
    vonMisesForm Real.sqrt (1 / 2) 2 (voigt2 S) =
      Real.sqrt (3 / 2 * (S * S).trace - 1 / 2 * S.trace ^ 2) := by
  have e : ∀ i j, S j i = S i j := fun i j => congrFun (congrFun hS i) j
  unfold vonMisesForm radicand
  simp only [voigt2, show (2 : Nat) ≠ 1 by decide, show (2 : Nat) ≠ 3 by decide, if_false]
  congr 1
  simp only [Matrix.trace, Matrix.diag, Matrix.mul_apply, Fin.sum_univ_two]
  rw [e 0 1]
  ring

theorem trace_conj {n : Nat} {Q : Matrix (Fin n) (Fin n) ℝ} (hQ : Q.transpose * Q = 1) (S : Matrix (Fin n) (Fin n) ℝ) :
    (Q * S * Q.transpose).trace = S.trace := by
  rw [Matrix.trace_mul_comm, ← Matrix.mul_assoc, hQ, Matrix.one_mul]

theorem conj_sq {n : Nat} {Q : Matrix (Fin n) (Fin n) ℝ} (hQ : Q.transpose * Q = 1) (S : Matrix (Fin n) (Fin n) ℝ) :
    (Q * S * Q.transpose) * (Q * S * Q.transpose) = Q * (S * S) * Q.transpose := by
  calc (Q * S * Q.transpose) * (Q * S * Q.transpose) = Q * S * (Q.transpose * Q) * S * Q.transpose := by
        simp only [Matrix.mul_assoc]
    _ = Q * (S * S) * Q.transpose := by rw [hQ, Matrix.mul_one]; simp only [Matrix.mul_assoc]

theorem conj_symm {n : Nat} {Q S : Matrix (Fin n) (Fin n) ℝ} (hS : S.transpose = S) :
    (Q * S * Q.transpose).transpose = Q * S * Q.transpose := by
  rw [Matrix.transpose_mul, Matrix.transpose_mul, Matrix.transpose_transpose, hS, Matrix.mul_assoc]

/-- **C54**: the measure does not depend on the frame. -/
theorem C54_frame3 {S Q : Matrix (Fin 3) (Fin 3) ℝ} (hS : S.transpose = S) (hQ : Q.transpose * Q = 1) :
    vonMisesForm Real.sqrt (1 / 2) 3 (voigt3 (Q * S * Q.transpose)) = vonMisesForm Real.sqrt (1 / 2) 3 (voigt3 S) := by
  rw [C54_invariants3 (conj_symm hS), C54_invariants3 hS, conj_sq hQ, trace_conj hQ, trace_conj hQ]

theorem C54_frame2 {S Q : Matrix (Fin 2) (Fin 2) ℝ} (hS : S.transpose = S) (hQ : Q.transpose * Q = 1) :
    vonMisesForm Real.sqrt (1 / 2) 2 (voigt2 (Q * S * Q.transpose)) = vonMisesForm Real.sqrt (1 / 2) 2 (voigt2 S) := by
  rw [C54_invariants2 (conj_symm hS), C54_invariants2 hS, conj_sq hQ, trace_conj hQ, trace_conj hQ]

/-- A rotation that is not trivial meets the hypotheses. -/
example : let Q : Matrix (Fin 2) (Fin 2) ℝ := !![3 / 5, -4 / 5; 4 / 5, 3 / 5]
    Q.transpose * Q = 1 ∧ (!![1, 2; 2, 3] : Matrix (Fin 2) (Fin 2) ℝ).transpose = !![1, 2; 2, 3] := by
  refine ⟨?_, ?_⟩
  · ext i j
    fin_cases i <;> fin_cases j <;> simp [Matrix.mul_apply, Fin.sum_univ_two] <;> norm_num
  · ext i j
    fin_cases i <;> fin_cases j <;> simp

theorem radicand_nonneg3 (σ : Nat → ℝ) : 0 ≤ radicand (1 / 2) 3 σ := by
  unfold radicand
  rw [if_pos rfl]
  nlinarith [mul_self_nonneg (σ 0 - σ 1), mul_self_nonneg (σ 1 - σ 2), mul_self_nonneg (σ 2 - σ 0),
    mul_self_nonneg (σ 3), mul_self_nonneg (σ 4), mul_self_nonneg (σ 5)]

theorem radicand_nonneg2 (σ : Nat → ℝ) : 0 ≤ radicand (1 / 2) 2 σ := by
  unfold radicand
  rw [if_neg (by decide)]
  nlinarith [mul_self_nonneg (σ 0 - σ 1), mul_self_nonneg (σ 0 + σ 1), mul_self_nonneg (σ 2)]

/-- **C54**: never negative in two and three dimensions. -/
theorem C54_nonneg {d : Nat} (hd : d = 2 ∨ d = 3) (σ : Nat → ℝ) : 0 ≤ vonMisesForm Real.sqrt (1 / 2) d σ := by
  unfold vonMisesForm
  rw [if_neg (by omega)]
  exact Real.sqrt_nonneg _

/-- **C54**: zero exactly for hydrostatic stress. -/
theorem C54_zero3 (σ : Nat → ℝ) : vonMisesForm Real.sqrt (1 / 2) 3 σ = 0 ↔
    σ 0 = σ 1 ∧ σ 1 = σ 2 ∧ σ 3 = 0 ∧ σ 4 = 0 ∧ σ 5 = 0 := by
  unfold vonMisesForm
  rw [if_neg (by decide), Real.sqrt_eq_zero (radicand_nonneg3 σ)]
  unfold radicand
  rw [if_pos rfl]
  constructor
  · intro h
    have a := mul_self_nonneg (σ 0 - σ 1)
    have b := mul_self_nonneg (σ 1 - σ 2)
    have c := mul_self_nonneg (σ 2 - σ 0)
    have d := mul_self_nonneg (σ 3)
    have e := mul_self_nonneg (σ 4)
    have f := mul_self_nonneg (σ 5)
    refine ⟨sub_eq_zero.1 (mul_self_eq_zero.1 ?_), sub_eq_zero.1 (mul_self_eq_zero.1 ?_), mul_self_eq_zero.1 ?_,
      mul_self_eq_zero.1 ?_, mul_self_eq_zero.1 ?_⟩ <;> nlinarith
  · rintro ⟨h1, h2, h3, h4, h5⟩
    rw [h1, h2, h3, h4, h5]
    ring

/-- **C54** in the plane: zero only without stress. -/
theorem C54_zero2 (σ : Nat → ℝ) : vonMisesForm Real.sqrt (1 / 2) 2 σ = 0 ↔ σ 0 = 0 ∧ σ 1 = 0 ∧ σ 2 = 0 := by
  unfold vonMisesForm
  rw [if_neg (by decide), Real.sqrt_eq_zero (radicand_nonneg2 σ)]
  unfold radicand
  rw [if_neg (by decide)]
  constructor
  · intro h
    have a := mul_self_nonneg (σ 0 - σ 1)
    have b := mul_self_nonneg (σ 0 + σ 1)
    have c := mul_self_nonneg (σ 0)
    have d := mul_self_nonneg (σ 1)
    have e := mul_self_nonneg (σ 2)
    refine ⟨mul_self_eq_zero.1 ?_, mul_self_eq_zero.1 ?_, mul_self_eq_zero.1 ?_⟩ <;> nlinarith
  · rintro ⟨h1, h2, h3⟩
    rw [h1, h2, h3]
    ring

/-- **C54**: scaling the stress scales the measure. -/
theorem C54_scale {d : Nat} (hd : d = 2 ∨ d = 3) (a : ℝ) (σ : Nat → ℝ) :
    vonMisesForm Real.sqrt (1 / 2) d (fun t => a * σ t) = |a| * vonMisesForm Real.sqrt (1 / 2) d σ := by
  unfold vonMisesForm
  rw [if_neg (by omega), if_neg (by omega)]
  have : radicand (1 / 2) d (fun t => a * σ t) = a ^ 2 * radicand (1 / 2) d σ := by
    unfold radicand
    split_ifs <;> ring
  rw [this, Real.sqrt_mul (sq_nonneg a), Real.sqrt_sq_eq_abs]

/-- **C54**: the measure of a pull or push along an axis is its size. -/
theorem C54_uniaxial {d : Nat} (hd : d = 2 ∨ d = 3) (a : ℝ) :
    vonMisesForm Real.sqrt (1 / 2) d (fun t => if t = 0 then a else 0) = |a| := by
  unfold vonMisesForm radicand
  rw [if_neg (by omega)]
  rcases hd with rfl | rfl
  · simp [Real.sqrt_mul_self_eq_abs]
  · rw [← Real.sqrt_sq_eq_abs]
    congr 1
    simp
    ring

/-- **C54 refuted in one dimension**: the measure of a compressed rod is negative. -/
theorem C54_uniaxial1_false : ¬ ∀ a : ℝ, vonMisesForm Real.sqrt (1 / 2) 1 (fun t => if t = 0 then a else 0) = |a| := by
  intro h
  have := h (-1)
  simp [vonMisesForm] at this
  norm_num at this

/-- So a rod under any compression never violates the stress limit. -/
theorem C54_compressed_rod (m : PenaltyData) {a limit : ℝ} (ha : a ≤ 0) (hl : 0 < limit) (rho : ℝ) :
    trueConstraint id (vonMisesForm Real.sqrt (1 / 2) 1 (fun t => if t = 0 then a else 0) / limit) (Plato.simp m rho) =
      0 := by
  refine if_neg (not_lt.2 ?_)
  simp only [vonMisesForm, if_true, id]
  exact (div_nonpos_of_nonpos_of_nonneg ha hl.le).trans zero_le_one

/-! ## C55: normalisation of the mass -/

section Normalise
variable {M : FeModel} (hM : M.Ok)

theorem cellMass_one {npc n c : Nat} {basis : List ℝ} (hb : basis.length = npc)
    (hsum : ∑ i ∈ range npc, at0 basis i = 1) (hc : c < n) :
    cellMass npc c basis (⟨n, npc, fun _ _ => 1⟩ : V2 ℝ) = .ok 1 := by
  unfold cellMass
  have inner : ∀ i, i < npc → (forRange 0 npc (0 : ℝ) fun j s => do
      let a ← rd basis i
      let b ← rd basis j
      let z ← vrd2 (⟨n, npc, fun _ _ => 1⟩ : V2 ℝ) c j
      pure (s + a * b * z)) = .ok (at0 basis i) := by
    intro i hi
    have := forRange_eq (n := npc) (body := fun j (s : ℝ) => do
      let a ← rd basis i
      let b ← rd basis j
      let z ← vrd2 (⟨n, npc, fun _ _ => 1⟩ : V2 ℝ) c j
      pure (s + a * b * z)) (fun k => ∑ j ∈ range k, at0 basis i * at0 basis j) (by
        intro k hk
        rw [rd_at0 (by omega), Res.ok_bind, rd_at0 (by omega), Res.ok_bind, vrd2_ok hc hk, Res.ok_bind,
          sum_range_succ, mul_one]
        rfl)
    rw [sum_range_zero] at this
    rw [this, ← mul_sum, hsum, mul_one]
  have := forRange_eq (n := npc) (body := fun i (m : ℝ) => do
    let nodal ← forRange 0 npc (0 : ℝ) fun j s => do
      let a ← rd basis i
      let b ← rd basis j
      let z ← vrd2 (⟨n, npc, fun _ _ => 1⟩ : V2 ℝ) c j
      pure (s + a * b * z)
    pure (m + nodal)) (fun k => ∑ i ∈ range k, at0 basis i) (by
      intro k hk
      rw [inner k hk, Res.ok_bind, sum_range_succ]
      rfl)
  rw [sum_range_zero] at this
  rw [this, hsum]

/-- Volume of a cell of the mesh. -/
noncomputable def meshVolume (M : FeModel) (x : List ℝ) (c : Nat) : ℝ := |detForm M.dim (M.cellX x c)|

include hM
/-- **C55**: the normalisation is the mass of the first cells of the mesh, as many as the domain has. -/
theorem C55_structuralMass (hdim : M.dim = 1 ∨ M.dim = 2 ∨ M.dim = 3) {weight density : ℝ} {basis : List ℝ}
    (hb : basis.length = M.npc) (hsum : ∑ i ∈ range M.npc, at0 basis i = 1) {n : Nat} (hn : n ≤ M.nc) {x : List ℝ}
    (hx : x.length = M.nn * M.dim) {cfg order : List Nat} {chunks : List (List Nat)} (h1 : IsSchedule cfg n)
    (h2 : IsSchedule order n) (h3 : IsPartition chunks n) :
    structuralMass M weight density basis n x cfg order chunks =
      .ok (∑ c ∈ range n, density * (meshVolume M x c * weight)) := by
  unfold structuralMass
  have hd : DomOk none n M.nc := ⟨fun c hc => lt_of_lt_of_le hc hn, fun l hl => absurd hl (by simp)⟩
  obtain ⟨g, eg, g0, g1, g2, g3⟩ := worksetConfig_ok (mk := plainOf) (dim := M.dim)
    (ws := (⟨n, M.npc, M.dim, fun _ _ _ => 0⟩ : V3 ℝ)) hM.mesh hd hx rfl rfl rfl h1
  rw [eg, Res.ok_bind]
  have hg : ∀ c, c < n → detForm M.dim (g.e c) = detForm M.dim (M.cellX x c) := by
    intro c hc
    refine detForm_congr hdim fun a k ha hk => ?_
    rw [g3 c a k hc ha hk]
    rfl
  obtain ⟨r, er, hl, hq⟩ := parFor_map h2 (fun c _ => 1 * density * |detForm M.dim (g.e c)| * weight)
    (body := fun c r => do
      let v ← computeCellVolume abs M.dim c g
      let a ← cellMass M.npc c basis ⟨n, M.npc, fun _ _ => 1⟩
      wr r c (a * density * v * weight)) (y0 := List.replicate n 0) (by
      intro c y hc hy
      rw [computeCellVolume_form abs hdim (by omega) g1 g2, Res.ok_bind, cellMass_one hb hsum hc, Res.ok_bind,
        wr_eq (by omega)]) List.length_replicate
  rw [er, Res.ok_bind]
  unfold localResultSum
  rw [parReduce_sum h3 (f := fun c => at0 r c) (fun c s hc => by rw [rd_at0 (by omega)]; rfl)]
  refine congrArg Res.ok (sum_congr rfl fun c hc => ?_)
  rw [hq c (mem_range.1 hc), hg c (mem_range.1 hc)]
  unfold meshVolume
  ring

omit hM in
/-- The mass of a domain at density one. -/
noncomputable def domainMass (M : FeModel) (weight density : ℝ) (x : List ℝ) (k : Nat) : ℝ :=
  ∑ c ∈ range (M.size (M.part k)), density * (meshVolume M x (gcell (M.part k) c) * weight)

/-- **C55, partial**: for a domain that consists of the first cells of the mesh in order, such as the only one,
the normalisation is the mass of the domain. -/
theorem C55_partial (hdim : M.dim = 1 ∨ M.dim = 2 ∨ M.dim = 3) {weight density : ℝ} {basis : List ℝ}
    (hb : basis.length = M.npc) (hsum : ∑ i ∈ range M.npc, at0 basis i = 1) {k : Nat}
    (hk : ∀ c, c < M.size (M.part k) → gcell (M.part k) c = c) (hn : M.size (M.part k) ≤ M.nc) {x : List ℝ}
    (hx : x.length = M.nn * M.dim) {cfg order : List Nat} {chunks : List (List Nat)}
    (h1 : IsSchedule cfg (M.size (M.part k))) (h2 : IsSchedule order (M.size (M.part k)))
    (h3 : IsPartition chunks (M.size (M.part k))) :
    structuralMass M weight density basis (M.size (M.part k)) x cfg order chunks =
      .ok (domainMass M weight density x k) := by
  rw [C55_structuralMass hM hdim hb hsum hn hx h1 h2 h3]
  refine congrArg Res.ok (sum_congr rfl fun c hc => ?_)
  rw [hk c (mem_range.1 hc)]

end Normalise

/-- Coordinates of a square whose last corner is pulled out. -/
def kite : List ℝ := [0, 0, 1, 0, 0, 1, 2, 2]

theorem kite_volume0 : meshVolume square kite 0 = 1 := by
  unfold meshVolume
  norm_num [detForm, edge, FeModel.cellX, square, cellNode, FeModel.npc, at0, atN, kite]

theorem kite_volume1 : meshVolume square kite 1 = 3 := by
  unfold meshVolume
  norm_num [detForm, edge, FeModel.cellX, square, cellNode, FeModel.npc, at0, atN, kite]

/-- **C55 refuted**: the second domain is normalised with the mass of the first. -/
theorem C55_false : ¬ ∀ (M : FeModel), M.Ok → (M.dim = 1 ∨ M.dim = 2 ∨ M.dim = 3) → ∀ (basis x : List ℝ) (k : Nat),
    basis.length = M.npc → ∑ i ∈ range M.npc, at0 basis i = 1 → x.length = M.nn * M.dim → k < M.domains.length →
    M.size (M.part k) ≤ M.nc →
    structuralMass M (1 / 2) 1 basis (M.size (M.part k)) x (List.range (M.size (M.part k)))
      (List.range (M.size (M.part k))) [List.range (M.size (M.part k))] = .ok (domainMass M (1 / 2) 1 x k) := by
  intro h
  have hb : ∑ i ∈ range 3, at0 [(1 : ℝ) / 3, 1 / 3, 1 / 3] i = 1 := by
    simp only [sum_range_succ, sum_range_zero, at0]
    norm_num
  have hpart : IsPartition [List.range 1] 1 := by simp [IsPartition]
  have h1 := h square square_ok (.inr (.inl rfl)) [1 / 3, 1 / 3, 1 / 3] kite 1 rfl hb rfl (by decide) (by decide)
  have h2 := C55_structuralMass square_ok (.inr (.inl rfl)) (weight := 1 / 2) (density := 1)
    (basis := [1 / 3, 1 / 3, 1 / 3]) rfl hb (n := 1) (by decide) (x := kite) rfl (IsSchedule.range 1)
    (IsSchedule.range 1) hpart
  have h3 := h2.symm.trans h1
  simp only [Res.ok.injEq, domainMass] at h3
  change ∑ c ∈ range 1, _ = ∑ c ∈ range 1, _ at h3
  rw [sum_range_one, sum_range_one, kite_volume0] at h3
  change _ = 1 * (meshVolume square kite 1 * (1 / 2)) at h3
  rw [kite_volume1] at h3
  norm_num at h3

/-! ## The hypotheses of C38 are met -/

/-- Two domains, two calls: what `C38_history` and `C38_gradients` ask from model, material, objects and calls. -/
example : let A := AugLag.new ⟨1 / 1000, 3, 3, 0, 0⟩ 1 (1 / 4) 10 (11 / 10) (1 / 100) 2
    let F : Nat → Copies := fun _ => ⟨A, A, A, A⟩
    let s := fun k => List.range (square.size (square.part k))
    let call : UpdateSched × List ℝ × List ℝ := (⟨s, s, s, fun k _ => s k⟩, [0, 0, 0, 0, 0, 0, 1, 1], [1, 1, 1, 1])
    square.Ok ∧ MechOk square (fun _ => unitMaterial 2) ∧ Agree square F ∧
      (∀ k, k < square.domains.length → (F k).value.Ok square.nc ∧ 0 < (F k).value.limit) ∧
      (∀ c ∈ [call, call], CallOk square c) ∧ (∀ k, k < square.domains.length → square.size (square.part k) ≤ square.nc) ∧
      ∀ c, c < square.nc → goodAug square (fun k => (F k).value) (square.cellZ [1, 1, 1, 1] c) (square.cellX kite c) := by
  refine ⟨square_ok, ⟨.inr (.inl rfl), rfl, fun _ _ => rfl⟩, fun _ _ => ⟨rfl, rfl, rfl⟩, fun k _ => ⟨?_, ?_⟩, ?_, ?_, ?_⟩
  · exact AugLag.new_ok _ _ _ _ _ _ _ (by norm_num) (by norm_num) (by norm_num) (by norm_num) (by norm_num)
  · exact one_pos
  · intro c hc
    simp only [List.mem_cons, List.not_mem_nil, or_false, or_self] at hc
    subst hc
    refine ⟨⟨fun k _ => IsSchedule.range _, fun k _ => IsSchedule.range _, fun k _ => IsSchedule.range _,
      fun k _ _ => IsSchedule.range _⟩, rfl, rfl, fun i => ?_⟩
    match i with
    | 0 => norm_num [at0]
    | 1 => norm_num [at0]
    | 2 => norm_num [at0]
    | 3 => norm_num [at0]
    | n + 4 => simp [at0]
  · intro k hk
    have hk : k < 2 := hk
    interval_cases k <;> decide
  · intro c hc
    have hc : c < 2 := hc
    refine ⟨?_, fun k _ => .inr ?_⟩
    · have h0 := kite_volume0
      have h1 := kite_volume1
      unfold meshVolume at h0 h1
      interval_cases c
      · intro h
        rw [h] at h0
        norm_num at h0
      · intro h
        rw [h] at h1
        norm_num at h1
    · show (1 : ℝ) ≤ 3
      norm_num

end Plato.Crit
