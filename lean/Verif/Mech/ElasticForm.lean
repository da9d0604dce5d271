import Verif.Mech.Elastic

/-!
# C47: the elastostatic problem as energy form

Closed form of the assembled residual, its virtual work, and what follows for the stiffness matrix.
-/

namespace Plato.Mech
open Finset Plato

/-! ## Locality of the cell forms -/

section Congr
variable {K : Type} [CommRing K]

theorem edge_congr {d : Nat} {X X' : Nat → Nat → K} (h : ∀ a k, a < d + 1 → k < d → X a k = X' a k)
    {i n : Nat} (hi : i < d) (hn : n < d) : edge d X i n = edge d X' i n := by
  unfold edge
  rw [h n i (by omega) hi, h d i (by omega) hi]

theorem cofForm_congr {d : Nat} {X X' : Nat → Nat → K} (hd : d = 1 ∨ d = 2 ∨ d = 3)
    (h : ∀ a k, a < d + 1 → k < d → X a k = X' a k) {n k : Nat} (hn : n < d) (hk : k < d) :
    cofForm d X n k = cofForm d X' n k := by
  have e : ∀ i n, i < d → n < d → edge d X i n = edge d X' i n := fun i n hi hn => edge_congr h hi hn
  rcases hd with rfl | rfl | rfl
  · interval_cases n; interval_cases k; rfl
  · interval_cases n <;> interval_cases k <;> simp (disch := omega) only [cofForm, e]
  · interval_cases n <;> interval_cases k <;> simp (disch := omega) only [cofForm, e]

variable [Div K]

theorem gradForm_congr {d : Nat} {X X' : Nat → Nat → K} (hd : d = 1 ∨ d = 2 ∨ d = 3)
    (h : ∀ a k, a < d + 1 → k < d → X a k = X' a k) {n k : Nat} (hk : k < d) :
    gradForm d X n k = gradForm d X' n k := by
  unfold gradForm
  rw [detForm_congr hd h]
  split_ifs with hn
  · rw [cofForm_congr hd h hn hk]
  · rw [sum_congr rfl fun m hm => by rw [cofForm_congr hd h (mem_range.1 hm) hk]]

variable {P : Elastostatic K} (hd : P.d = 1 ∨ P.d = 2 ∨ P.d = 3) {U U' Z Z' : Nat → K} {X X' : Nat → Nat → K}
  (hU : ∀ l, l < (P.d + 1) * P.d → U l = U' l) (hZ : ∀ a, a < P.d + 1 → Z a = Z' a)
  (hX : ∀ a k, a < P.d + 1 → k < P.d → X a k = X' a k)

include hd hU hX in
theorem strainForm_congr (t : Nat) : P.strainForm U X t = P.strainForm U' X' t :=
  voigtStrain_congr hd (fun _ _ hn hi => hU _ (dof_lt hn hi)) fun _ _ _ hj => gradForm_congr hd hX hj

omit [Div K] in
theorem meanDensity_congr {npc : Nat} [Div K] {Z Z' : Nat → K} (h : ∀ a, a < npc → Z a = Z' a) :
    meanDensity npc Z = meanDensity npc Z' := by
  unfold meanDensity
  rw [sum_congr rfl fun a ha => h a (mem_range.1 ha)]

include hd hU hZ hX in
theorem forceRow_congr (fabs : K → K) : P.forceRow fabs U Z X = P.forceRow fabs U' Z' X' := by
  unfold Elastostatic.forceRow
  refine sum_congr rfl fun i hi => sum_congr rfl fun n _ => ?_
  congr 1
  have hv : P.volForm fabs X = P.volForm fabs X' := by
    unfold Elastostatic.volForm
    rw [detForm_congr hd hX]
  rw [hv, nodalForce_congr hd (mem_range.1 hi) (fun t _ => ?_) fun j hj => gradForm_congr hd hX hj]
  unfold Elastostatic.stressForm Elastostatic.solidStress
  rw [meanDensity_congr hZ]
  simp only [strainForm_congr hd hU hX]

include hZ in
theorem loadRow_congr (c gc : Nat) : P.loadRow c gc Z = P.loadRow c gc Z' := by
  unfold Elastostatic.loadRow BodyLoad.row
  rw [meanDensity_congr hZ]

end Congr

/-! ## The assembled residual -/

/-- State of a global cell. -/
def FeModel.cellU (M : FeModel) (u : List ℝ) (cell l : Nat) : ℝ :=
  at0 u (cellDof M.npc M.ndof M.c2n cell l)

/-- Force row of cell `c` of part `k`. -/
noncomputable def cellRow (M : FeModel) (P : Nat → Elastostatic ℝ) (u z x : List ℝ) (k c l : Nat) : ℝ :=
  (P k).forceRow abs (M.cellU u (gcell (M.part k) c)) (M.cellZ z (gcell (M.part k) c))
      (M.cellX x (gcell (M.part k) c)) l +
    (P k).loadRow c (gcell (M.part k) c) (M.cellZ z (gcell (M.part k) c)) l

theorem scatteredVec_congr {npc d : Nat} {c2n : List Nat} {dom : Option (List Nat)} {n : Nat}
    {w w' : Nat → Nat → ℝ} (h : ∀ c l, c < n → l < npc * d → w c l = w' c l) (q : Nat) :
    scatteredVec npc d c2n dom n w q = scatteredVec npc d c2n dom n w' q := by
  unfold scatteredVec
  refine sum_congr rfl fun c hc => sum_congr rfl fun l hl => ?_
  rw [h c l (mem_range.1 hc) (mem_range.1 hl)]

section
variable {M : FeModel} (hM : M.Ok) {P : Nat → Elastostatic ℝ} (h : ResOk M P)
  {init : Nat → Nat → Nat → Nat} {eR : Nat → Nat → List Nat}
  (heR : ∀ k j, IsSchedule (eR k j) (M.size (M.part k)))
  {u z x : List ℝ} (hu : u.length = M.nn * M.ndof) (hz : z.length = M.nn) (hx : x.length = M.nn * M.dim)
  {sch : Nat → Nat → List Nat} (hs : SchedOk M sch (M.npc * M.ndof))
include hM h heR hu hz hx hs

/-- **C47**: closed form of `value`: the sum over the domains and their cells of the internal forces
less the body loads. -/
theorem C47_value :
    (M.value (elastostatic abs M P init eR) sch u z x).Sat fun v => v.length = M.nn * M.ndof ∧
      ∀ q, at0 v q = ∑ k ∈ range M.domains.length,
        scatteredVec M.npc M.ndof M.c2n (M.part k) (M.size (M.part k)) (cellRow M P u z x k) q := by
  unfold FeModel.value
  refine (FeModel.overDomains_sat hM.some_domain (fun k v => v.length = M.nn * M.ndof ∧
    ∀ q, at0 v q = ∑ k ∈ range (min k M.domains.length),
      scatteredVec M.npc M.ndof M.c2n (M.part k) (M.size (M.part k)) (cellRow M P u z x k) q) ?_ ?_).mono ?_
  · refine ⟨by rw [List.length_replicate, Nat.mul_comm], fun q => ?_⟩
    simp only [Nat.zero_min, range_zero, sum_empty, at0, List.getElem?_replicate]
    split_ifs <;> rfl
  · rintro k v hk ⟨hl, hq⟩
    have hd := hM.domOk k
    obtain ⟨s, es, s0, s1, s2⟩ := workset_ok (mk := plainOf) (ws := ⟨M.size (M.part k), M.npc * M.ndof, fun _ _ => 0⟩)
      hM.mesh hd hu rfl rfl (hs.ws k 0 hk (by omega))
    obtain ⟨c, ez, z0, z1, z2⟩ := workset_ok (mk := plainOf) (ws := ⟨M.size (M.part k), M.npc, fun _ _ => 0⟩)
      (d := 1) hM.mesh hd (by rw [hz, Nat.mul_one]) rfl (by simp) (hs.ws k 1 hk (by omega))
    obtain ⟨g, ex, x0, x1, x2, x3⟩ := worksetConfig_ok (mk := plainOf)
      (ws := ⟨M.size (M.part k), M.npc, M.dim, fun _ _ _ => 0⟩) hM.mesh hd hx rfl rfl rfl
      (hs.ws k 2 hk (by omega))
    unfold FeModel.cellResults
    simp only [es, ez, ex, Res.ok_bind]
    dsimp only [elastostatic]
    have asm := (hs.asm k hk)
    by_cases hkl : k < M.domains.length
    swap
    · have hp : M.part k = none := if_neg hkl
      rw [hp] at hd asm ⊢
      dsimp only
      rw [Res.ok_bind]
      refine (C08_assembleResidual hM.mesh hd hl le_rfl le_rfl asm).mono ?_
      rintro v' ⟨hl', hq'⟩
      refine ⟨hl', fun q => ?_⟩
      rw [hq' q, hq q, min_eq_right (by omega), min_eq_right (by omega)]
      simp [scatteredVec, V2.view2]
    · have hp : M.part k = some (M.domains[k]?.getD []) := if_pos hkl
      generalize M.domains[k]?.getD [] = cells at hp
      have hsz : M.size (M.part k) = cells.length := by rw [hp]; rfl
      have hPd : (P k).d = M.dim := h.d k hkl
      have hd3 : (P k).d = 1 ∨ (P k).d = 2 ∨ (P k).d = 3 := by rw [hPd]; exact h.dim
      have hnd : M.npc * M.ndof = ((P k).d + 1) * (P k).d := by rw [h.ndof, FeModel.npc, hPd]
      have hnp : M.npc = (P k).d + 1 := by rw [FeModel.npc, hPd]
      have hLd : ∀ B ∈ (P k).bodyLoads, BodyLoad.Ok B (P k).d (P k).d cells := by
        rw [hPd]; exact h.loads k cells hp
      have hev := evaluate_ok (P := P k) (cells := cells) (state := s) (control := c) (config := g) abs hd3
        ⟨(s0.trans hsz).ge, (s1.trans hnd).ge, (z0.trans hsz).ge, by omega, (x0.trans hsz).ge,
          x1.trans hnp, by rw [x2, hPd]⟩ hLd (sched := eR k) (fun j => hsz ▸ heR k j) (init k)
        (result := ⟨M.size (M.part k), M.npc * M.ndof, fun _ _ => 0⟩) hsz.ge hnd.ge
      rw [hp] at hev s2 z2 x3 hd asm hsz ⊢
      dsimp only
      rw [hev, Res.ok_bind]
      refine (C08_assembleResidual hM.mesh hd hl le_rfl le_rfl asm).mono ?_
      rintro v' ⟨hl', hq'⟩
      refine ⟨hl', fun q => ?_⟩
      rw [hq' q, hq q, min_eq_left hk, min_eq_left (by omega), sum_range_succ, hp]
      congr 1
      refine scatteredVec_congr (fun c' l hc hl => ?_) q
      have hc' : c' < cells.length := hc
      simp only [V2.view2, addRows, hc', if_true, Pi.add_apply, zero_add]
      unfold cellRow
      rw [hp]
      have e1 : ∀ l, l < ((P k).d + 1) * (P k).d → s.e c' l = M.cellU u (gcell (some cells) c') l :=
        fun l hl => s2 c' l hc (by omega)
      have e2 : ∀ a, a < (P k).d + 1 → c.e c' a = M.cellZ z (gcell (some cells) c') a := by
        intro a ha
        rw [z2 c' a hc (by omega), cellDof_one]
        rfl
      have e3 : ∀ a i, a < (P k).d + 1 → i < (P k).d → g.e c' a i = M.cellX x (gcell (some cells) c') a i :=
        fun a i ha hi => x3 c' a i hc (by omega) (by omega)
      rw [forceRow_congr hd3 e1 e2 e3, loadRow_congr e2]
      rfl
  · rintro v ⟨hl, hq⟩
    refine ⟨hl, fun q => ?_⟩
    rw [hq q, min_eq_right (by omega)]

end

/-! ## Virtual work -/

/-- The work of the force row of a cell. -/
theorem forceRow_work {P : Elastostatic ℝ} (hd : P.d = 1 ∨ P.d = 2 ∨ P.d = 3) (U Z : Nat → ℝ)
    (X : Nat → Nat → ℝ) (W : Nat → ℝ) :
    ∑ l ∈ range ((P.d + 1) * P.d), P.forceRow abs U Z X l * W l =
      P.volForm abs X * ∑ t ∈ range (numVoigt P.d), P.stressForm U Z X t * P.strainForm W X t := by
  have e : ∀ l, P.forceRow abs U Z X l = ∑ i ∈ range P.d, ∑ n ∈ range (P.d + 1),
      (Pi.single (n * P.d + i) (P.volForm abs X *
        nodalForce P.d (P.stressForm U Z X) (gradForm P.d X) n i) : Nat → ℝ) l := by
    intro l
    unfold Elastostatic.forceRow
    simp only [Finset.sum_apply]
  simp only [e, sum_mul]
  rw [sum_comm]
  have e2 : ∀ i ∈ range P.d, ∑ l ∈ range ((P.d + 1) * P.d), ∑ n ∈ range (P.d + 1),
      (Pi.single (n * P.d + i) (P.volForm abs X *
        nodalForce P.d (P.stressForm U Z X) (gradForm P.d X) n i) : Nat → ℝ) l * W l =
      ∑ n ∈ range (P.d + 1), P.volForm abs X * (W (n * P.d + i) *
        nodalForce P.d (P.stressForm U Z X) (gradForm P.d X) n i) := by
    intro i hi
    rw [sum_comm]
    refine sum_congr rfl fun n hn => ?_
    rw [sum_eq_single_of_mem _ (mem_range.2 (dof_lt (mem_range.1 hn) (mem_range.1 hi)))]
    · rw [Pi.single_eq_same]; ring
    · intro l _ hl
      rw [Pi.single_eq_of_ne hl, zero_mul]
  rw [sum_congr rfl e2]
  simp only [← mul_sum]
  rw [C45_virtual_work hd (P.stressForm U Z X) (fun n i => W (n * P.d + i)) (gradForm P.d X)]
  rfl

/-- Strain is linear in the displacement. -/
theorem strainForm_lin (P : Elastostatic ℝ) (a b : ℝ) (U V : Nat → ℝ) (X : Nat → Nat → ℝ) (t : Nat) :
    P.strainForm (fun l => a * U l + b * V l) X t = a * P.strainForm U X t + b * P.strainForm V X t := by
  have e : ∀ i j, fieldGrad P.d (fun n i => a * U (n * P.d + i) + b * V (n * P.d + i)) (gradForm P.d X) i j =
      a * fieldGrad P.d (fun n i => U (n * P.d + i)) (gradForm P.d X) i j +
        b * fieldGrad P.d (fun n i => V (n * P.d + i)) (gradForm P.d X) i j := by
    intro i j
    unfold fieldGrad
    rw [mul_sum, mul_sum, ← sum_add_distrib]
    exact sum_congr rfl fun n _ => by ring
  unfold Elastostatic.strainForm voigtStrain
  rw [e, e, e]
  split_ifs <;> ring

/-- Strain energy of a cell, as bilinear form: volume times penalty times strain : stiffness : strain. -/
noncomputable def cellEnergy (P : Elastostatic ℝ) (Z : Nat → ℝ) (X : Nat → Nat → ℝ) (U W : Nat → ℝ) : ℝ :=
  P.volForm abs X * P.pen (meanDensity (P.d + 1) Z) *
    ∑ t ∈ range (numVoigt P.d), ∑ s ∈ range (numVoigt P.d), P.strainForm U X s * P.stiff t s * P.strainForm W X t

/-- Energy form of the problem. -/
noncomputable def energyForm (M : FeModel) (P : Nat → Elastostatic ℝ) (z x : List ℝ) (u w : Nat → ℝ) : ℝ :=
  ∑ k ∈ range M.domains.length, ∑ c ∈ range (M.size (M.part k)),
    cellEnergy (P k) (M.cellZ z (gcell (M.part k) c)) (M.cellX x (gcell (M.part k) c))
      (fun l => u (cellDof M.npc M.ndof M.c2n (gcell (M.part k) c) l))
      (fun l => w (cellDof M.npc M.ndof M.c2n (gcell (M.part k) c) l))

theorem cellEnergy_work {P : Elastostatic ℝ} (hd : P.d = 1 ∨ P.d = 2 ∨ P.d = 3) (U Z : Nat → ℝ)
    (X : Nat → Nat → ℝ) (W : Nat → ℝ) :
    ∑ l ∈ range ((P.d + 1) * P.d), P.forceRow abs U Z X l * W l =
      cellEnergy P Z X U W + ∑ l ∈ range ((P.d + 1) * P.d), P.forceRow abs 0 Z X l * W l := by
  have z0 : ∀ t, P.strainForm (0 : Nat → ℝ) X t = 0 := by
    intro t
    have := strainForm_lin P 0 0 (0 : Nat → ℝ) 0 X t
    simp only [zero_mul, add_zero] at this
    exact this
  rw [forceRow_work hd, forceRow_work hd]
  unfold cellEnergy
  rw [mul_assoc, ← mul_add]
  congr 1
  rw [mul_sum, ← sum_add_distrib]
  refine sum_congr rfl fun t _ => ?_
  unfold Elastostatic.stressForm Elastostatic.solidStress
  simp only [z0, sub_mul, zero_mul, sum_sub_distrib, sum_const_zero]
  rw [show ∑ s ∈ range (numVoigt P.d), P.strainForm U X s * P.stiff t s * P.strainForm W X t =
    (∑ s ∈ range (numVoigt P.d), P.strainForm U X s * P.stiff t s) * P.strainForm W X t from (sum_mul ..).symm]
  ring

section
variable {M : FeModel} (hM : M.Ok) {P : Nat → Elastostatic ℝ} (h : ResOk M P)
  {init : Nat → Nat → Nat → Nat} {eR : Nat → Nat → List Nat}
  (heR : ∀ k j, IsSchedule (eR k j) (M.size (M.part k)))
  {u z x : List ℝ} (hu : u.length = M.nn * M.ndof) (hz : z.length = M.nn) (hx : x.length = M.nn * M.dim)
  {sch sch0 : Nat → Nat → List Nat} (hs : SchedOk M sch (M.npc * M.ndof)) (hs0 : SchedOk M sch0 (M.npc * M.ndof))
include hM h heR hu hz hx hs hs0

/-- **C47**: the work of `value(u)` on every virtual displacement is the energy form plus the work of
`value(0)`. -/
theorem C47_work :
    ∃ v v0, M.value (elastostatic abs M P init eR) sch u z x = .ok v ∧
      M.value (elastostatic abs M P init eR) sch0 (List.replicate (M.nn * M.ndof) 0) z x = .ok v0 ∧
      ∀ w : Nat → ℝ, ∑ q ∈ range (M.nn * M.ndof), at0 v q * w q =
        energyForm M P z x (at0 u) w + ∑ q ∈ range (M.nn * M.ndof), at0 v0 q * w q := by
  obtain ⟨v, hv, -, hq⟩ := C47_value hM h heR (init := init) hu hz hx hs
  obtain ⟨v0, hv0, -, hq0⟩ := C47_value hM h heR (init := init) (u := List.replicate (M.nn * M.ndof) 0)
    List.length_replicate hz hx hs0
  refine ⟨v, v0, hv, hv0, fun w => ?_⟩
  have z0 : ∀ c l, M.cellU (List.replicate (M.nn * M.ndof) 0) c l = 0 := by
    intro c l
    simp only [FeModel.cellU, at0, List.getElem?_replicate]
    split_ifs <;> rfl
  have key : ∀ (v : List ℝ) (u : List ℝ), (∀ q, at0 v q = ∑ k ∈ range M.domains.length,
        scatteredVec M.npc M.ndof M.c2n (M.part k) (M.size (M.part k)) (cellRow M P u z x k) q) →
      ∑ q ∈ range (M.nn * M.ndof), at0 v q * w q = ∑ k ∈ range M.domains.length,
        ∑ c ∈ range (M.size (M.part k)), ∑ l ∈ range (M.npc * M.ndof), cellRow M P u z x k c l *
          w (cellDof M.npc M.ndof M.c2n (gcell (M.part k) c) l) := by
    intro v u hq
    simp only [hq, sum_mul]
    rw [sum_comm]
    refine sum_congr rfl fun k _ => ?_
    exact scatteredVec_pairing hM.mesh (hM.domOk k) _ w
  rw [key v u hq, key v0 _ hq0]
  unfold energyForm
  rw [← sum_add_distrib]
  refine sum_congr rfl fun k hk => ?_
  rw [← sum_add_distrib]
  refine sum_congr rfl fun c _ => ?_
  have hPd : (P k).d = M.dim := h.d k (mem_range.1 hk)
  have hd3 : (P k).d = 1 ∨ (P k).d = 2 ∨ (P k).d = 3 := by rw [hPd]; exact h.dim
  have hnd : M.npc * M.ndof = ((P k).d + 1) * (P k).d := by rw [h.ndof, FeModel.npc, hPd]
  unfold cellRow
  rw [hnd]
  simp only [add_mul (Elastostatic.forceRow _ _ _ _ _ _), sum_add_distrib]
  rw [cellEnergy_work hd3, show M.cellU (List.replicate (M.nn * M.ndof) 0) (gcell (M.part k) c) = 0 from
    funext fun l => z0 _ l]
  rw [add_assoc]
  rfl

end

end Plato.Mech
