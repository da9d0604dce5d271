import Verif.Crit.ElasticProps

/-!
# C52: norms of the stress; refutations for C51, C52 and C53
-/

namespace Plato.Crit
open Finset Plato Plato.Mech

section Value
variable {M : FeModel} (hM : M.Ok) {P : Nat → Elastostatic ℝ} (h : MechOk M P)
include h

theorem norm_local {form : Nat → (Nat → ℝ) → ℝ → ℝ} :
    FormLocal M fun k U Z X => form k (weightedStress (P k) U Z X) ((P k).volForm abs X) := by
  intro k U U' Z Z' X X' hk hU hZ hX
  have hd := h.d k hk
  have hnp : M.npc = (P k).d + 1 := by rw [FeModel.npc, hd]
  have hU' : ∀ l, l < ((P k).d + 1) * (P k).d → U l = U' l :=
    fun l hl => hU l (by rw [hnp, h.ndof, ← hd]; exact hl)
  have hX' : ∀ a i, a < (P k).d + 1 → i < (P k).d → X a i = X' a i := fun a i ha hi => hX a i (by omega) (by omega)
  dsimp only
  unfold Elastostatic.volForm
  rw [weightedStress_congr (h.d3 hk) hU' (fun a ha => hZ a (by omega)) hX', detForm_congr (h.d3 hk) hX']

/-- Euclidean length of the Voigt vector of the stress of a cell. -/
noncomputable def stressLength (M : FeModel) (P : Nat → Elastostatic ℝ) (u z x : List ℝ) (k cell : Nat) : ℝ :=
  Real.sqrt (∑ t ∈ range (numVoigt (P k).d), weightedStress (P k) (cellS M u cell) (M.cellZ z cell) (M.cellX x cell) t ^ 2)

variable {eR : Nat → Nat → List Nat} (heR : ∀ k j, IsSchedule (eR k j) (M.size (M.part k)))
  {sv : Sched} {wv : Nat} {S : List (List ℝ)} {z x : List ℝ} (hS : ∀ u ∈ S, u.length = M.nn * M.ndof)
  (hz : z.length = M.nn) (hx : x.length = M.nn * M.dim) (hsv : sv.Ok M S.length wv)
include hM heR hS hz hx hsv

/-- The sum whose root the criterion reports. -/
noncomputable def normSum (M : FeModel) (P : Nat → Elastostatic ℝ) (p : Int) (S : List (List ℝ)) (z x : List ℝ) : ℝ :=
  ∑ k ∈ range M.domains.length, ∑ t ∈ range S.length, ∑ c ∈ range (M.size (M.part k)),
    stressLength M P (S[t]?.getD []) z x k (gcell (M.part k) c) ^ (p : ℝ) *
      (P k).volForm abs (M.cellX x (gcell (M.part k) c))

/-- **C52, value**: the exponent inside the sum is the integer part of the exponent of the root. -/
theorem C52_value (exponent dt : ℝ) (order : Nat → List Nat) :
    physicsValue M (stressPNorm abs (fun _ => tensorPNormFunctor fun a q => a ^ q) exponent P eR)
      (normPost exponent order) sv S z x dt = .ok (normSum M P (toOrdinal exponent) S z x ^ (1 / exponent)) := by
  rw [value_of_form hM (stressPNorm_computes abs (fun k hk => h.d3 hk) (fun k s z x hk hp => h.wsOk hk hp)
    (form := fun k => tensorForm (fun a q => a ^ q) (numVoigt (P k).d) (toOrdinal exponent))
    (fun k => tensorPNorm_form _ _ _) (by
      intro k σ σ' v hσ
      unfold tensorForm
      rw [sum_congr rfl fun t ht => by rw [hσ t (mem_range.1 ht)]]) heR dt) (norm_local h) hS hz hx hsv]
  congr 1
  show _ ^ (1 / exponent) = _
  congr 1
  unfold normSum
  refine sum_congr rfl fun k _ => sum_congr rfl fun t _ => sum_congr rfl fun c _ => ?_
  unfold tensorForm stressLength
  congr 1
  rw [Real.sqrt_eq_rpow, ← Real.rpow_mul (sum_nonneg fun _ _ => sq_nonneg _)]
  simp only [sq]
  congr 1
  ring

omit hM heR hS hz hx hsv h in
theorem normSum_nonneg (hw : ∀ k, k < M.domains.length → 0 ≤ (P k).cubWeight) (p : Int) : 0 ≤ normSum M P p S z x :=
  sum_nonneg fun k hk => sum_nonneg fun _ _ => sum_nonneg fun _ _ =>
    mul_nonneg (Real.rpow_nonneg (Real.sqrt_nonneg _) _) (mul_nonneg (abs_nonneg _) (hw k (mem_range.1 hk)))

omit hM heR hS hz hx hsv h in
/-- Stress without reference strain is linear in the displacement. -/
theorem stressLength_scale (hr : ∀ k t, k < M.domains.length → t < numVoigt (P k).d → (P k).refStrain t = 0) (a : ℝ)
    (u : List ℝ) {k : Nat} (hk : k < M.domains.length) (cell : Nat) :
    stressLength M P (u.map fun v => a * v) z x k cell = |a| * stressLength M P u z x k cell := by
  have e : cellS M (u.map fun v => a * v) cell = fun l => a * cellS M u cell l + 0 * cellS M u cell l := by
    funext l
    simp only [cellS, at0, List.getElem?_map, zero_mul, add_zero]
    cases u[cellDof M.npc M.ndof M.c2n cell l]? <;> simp
  have e2 : ∀ t, weightedStress (P k) (cellS M (u.map fun v => a * v) cell) (M.cellZ z cell) (M.cellX x cell) t =
      a * weightedStress (P k) (cellS M u cell) (M.cellZ z cell) (M.cellX x cell) t := by
    intro t
    unfold weightedStress Elastostatic.solidStress
    rw [e]
    simp only [strainForm_lin]
    simp only [zero_mul, add_zero, ← mul_assoc]
    congr 1
    rw [mul_sum]
    refine sum_congr rfl fun s hs => ?_
    rw [hr k s hk (mem_range.1 hs)]
    ring
  unfold stressLength
  simp only [e2, mul_pow, ← mul_sum]
  rw [Real.sqrt_mul (sq_nonneg a), Real.sqrt_sq_eq_abs]

/-- **C52, scaling** for every exponent: what happens when all displacements are multiplied by a number. -/
theorem C52_scaling (hr : ∀ k t, k < M.domains.length → t < numVoigt (P k).d → (P k).refStrain t = 0)
    (hw : ∀ k, k < M.domains.length → 0 ≤ (P k).cubWeight) (exponent dt : ℝ) (order : Nat → List Nat) (a : ℝ) :
    ∃ v v', physicsValue M (stressPNorm abs (fun _ => tensorPNormFunctor fun a q => a ^ q) exponent P eR)
        (normPost exponent order) sv S z x dt = .ok v ∧
      physicsValue M (stressPNorm abs (fun _ => tensorPNormFunctor fun a q => a ^ q) exponent P eR)
        (normPost exponent order) sv (S.map fun u => u.map fun v => a * v) z x dt = .ok v' ∧ 0 ≤ v ∧
      v' = |a| ^ ((toOrdinal exponent : ℝ) * (1 / exponent)) * v := by
  have hS' : ∀ u ∈ S.map fun u => u.map fun v => a * v, u.length = M.nn * M.ndof := by
    intro u hu
    obtain ⟨w, hw, rfl⟩ := List.mem_map.1 hu
    rw [List.length_map]
    exact hS w hw
  have hsv' : sv.Ok M (S.map fun u => u.map fun v => a * v).length wv := by rw [List.length_map]; exact hsv
  refine ⟨normSum M P (toOrdinal exponent) S z x ^ (1 / exponent),
    normSum M P (toOrdinal exponent) (S.map fun u => u.map fun v => a * v) z x ^ (1 / exponent),
    C52_value hM h heR hS hz hx hsv exponent dt order, C52_value hM h heR hS' hz hx hsv' exponent dt order,
    Real.rpow_nonneg (normSum_nonneg hw _) _, ?_⟩
  · have e : normSum M P (toOrdinal exponent) (S.map fun u => u.map fun v => a * v) z x =
        |a| ^ (toOrdinal exponent : ℝ) * normSum M P (toOrdinal exponent) S z x := by
      unfold normSum
      simp only [mul_sum, List.length_map]
      refine sum_congr rfl fun k hk => sum_congr rfl fun t ht => sum_congr rfl fun c _ => ?_
      have e1 : (S.map fun u => u.map fun v => a * v)[t]?.getD [] = (S[t]?.getD []).map fun v => a * v := by
        rw [List.getElem?_map, List.getElem?_eq_getElem (mem_range.1 ht)]
        rfl
      have hl : 0 ≤ stressLength M P (S[t]?.getD []) z x k (gcell (M.part k) c) := Real.sqrt_nonneg _
      rw [e1, stressLength_scale hr a _ (mem_range.1 hk), Real.mul_rpow (abs_nonneg a) hl, mul_assoc]
    rw [e, Real.mul_rpow (Real.rpow_nonneg (abs_nonneg _) _) (normSum_nonneg hw _), ← Real.rpow_mul (abs_nonneg _)]

/-- **C52**: for an integer exponent the criterion is homogeneous of degree one, as a norm is. -/
theorem C52_homogeneous_partial (hr : ∀ k t, k < M.domains.length → t < numVoigt (P k).d → (P k).refStrain t = 0)
    (hw : ∀ k, k < M.domains.length → 0 ≤ (P k).cubWeight) {p : Int} (hp : p ≠ 0) (dt : ℝ) (order : Nat → List Nat)
    (a : ℝ) :
    ∃ v, physicsValue M (stressPNorm abs (fun _ => tensorPNormFunctor fun a q => a ^ q) p P eR)
        (normPost p order) sv S z x dt = .ok v ∧ 0 ≤ v ∧
      physicsValue M (stressPNorm abs (fun _ => tensorPNormFunctor fun a q => a ^ q) p P eR)
        (normPost p order) sv (S.map fun u => u.map fun v => a * v) z x dt = .ok (|a| * v) := by
  obtain ⟨v, v', h1, h2, h3, h4⟩ := C52_scaling hM h heR hS hz hx hsv hr hw p dt order a
  have : ((toOrdinal (p : ℝ) : Int) : ℝ) * (1 / (p : ℝ)) = 1 := by
    have hp' : (p : ℝ) ≠ 0 := by exact_mod_cast hp
    unfold toOrdinal
    split_ifs <;> simp [hp']
  rw [this, Real.rpow_one] at h4
  exact ⟨v, h1, h3, h4 ▸ h2⟩

/-- **C52 is false** for exponents that are not integers: doubling the displacements never doubles the
reported norm, on any mesh with any material, unless the norm is zero. -/
theorem C52_homogeneous_false (hr : ∀ k t, k < M.domains.length → t < numVoigt (P k).d → (P k).refStrain t = 0)
    (hw : ∀ k, k < M.domains.length → 0 ≤ (P k).cubWeight) {exponent : ℝ} (h0 : 0 < exponent)
    (hne : ∀ n : Int, (n : ℝ) ≠ exponent) (dt : ℝ) (order : Nat → List Nat) {v : ℝ} (hv0 : v ≠ 0)
    (hv : physicsValue M (stressPNorm abs (fun _ => tensorPNormFunctor fun a q => a ^ q) exponent P eR)
        (normPost exponent order) sv S z x dt = .ok v) :
    ∃ v', physicsValue M (stressPNorm abs (fun _ => tensorPNormFunctor fun a q => a ^ q) exponent P eR)
        (normPost exponent order) sv (S.map fun u => u.map fun v => 2 * v) z x dt = .ok v' ∧ v' < 2 * v := by
  obtain ⟨w, v', h1, h2, h3, h4⟩ := C52_scaling hM h heR hS hz hx hsv hr hw exponent dt order 2
  rw [hv, Res.ok.injEq] at h1
  subst h1
  refine ⟨v', h2, ?_⟩
  rw [h4]
  refine mul_lt_mul_of_pos_right ?_ (lt_of_le_of_ne h3 (Ne.symm hv0))
  have ht : (toOrdinal exponent : ℝ) * (1 / exponent) < 1 := by
    rw [mul_one_div, div_lt_one h0]
    unfold toOrdinal
    rw [if_pos h0.le]
    exact lt_of_le_of_ne (Int.floor_le _) (hne _)
  rw [abs_of_pos (by norm_num : (0 : ℝ) < 2)]
  calc (2 : ℝ) ^ ((toOrdinal exponent : ℝ) * (1 / exponent)) < 2 ^ (1 : ℝ) :=
        Real.rpow_lt_rpow_of_exponent_lt (by norm_num) ht
    _ = 2 := Real.rpow_one 2

end Value

/-! ## A rod of one element -/

/-- Schedules of a sequential run. -/
def seqSch (M : FeModel) (w : Nat) : Sched where
  ctl k := List.range (M.size (M.part k))
  cfg k := List.range (M.size (M.part k))
  st k _ := List.range (M.size (M.part k))
  asm k _ := List.range (M.size (M.part k) * w)
  sum k _ := [List.range (M.size (M.part k))]

theorem seqSch_ok (M : FeModel) (T w : Nat) : (seqSch M w).Ok M T w :=
  ⟨fun _ _ => IsSchedule.range _, fun _ _ => IsSchedule.range _, fun _ _ _ _ => IsSchedule.range _,
    fun _ _ _ _ => IsSchedule.range _, fun _ _ _ _ => by
      unfold IsPartition
      simp [seqSch]⟩

/-- Unit material with a reference strain. -/
def rodMat (r : ℝ) : Elastostatic ℝ := ⟨1, fun i j => if i = j then 1 else 0, fun _ => r, id, 1, none, []⟩

theorem rod_mech (r : ℝ) : MechOk rod fun _ => rodMat r := ⟨.inl rfl, rfl, fun _ _ => rfl⟩

theorem rod_strain (r a b : ℝ) :
    (rodMat r).strainForm (cellS rod [a, b] 0) (rod.cellX [0, 1] 0) 0 = b - a := by
  norm_num [Elastostatic.strainForm, rodMat, voigtStrain, fieldGrad, cellS, FeModel.cellX, rod, cellDof, cellNode,
    FeModel.npc, sum_range_succ, gradForm, cofForm, detForm, edge, at0, atN, voigtPair, numVoigt]
  ring

theorem rod_stress (r a b : ℝ) :
    weightedStress (rodMat r) (cellS rod [a, b] 0) (rod.cellZ [1, 1] 0) (rod.cellX [0, 1] 0) 0 = b - a - r := by
  unfold weightedStress Elastostatic.solidStress
  rw [show numVoigt (rodMat r).d = 1 from rfl, sum_range_one, rod_strain]
  norm_num [rodMat, meanDensity, sum_range_succ, FeModel.cellZ, rod, cellNode, FeModel.npc, at0, atN]

theorem rod_vol (r : ℝ) : (rodMat r).volForm abs (rod.cellX [0, 1] 0) = 1 := by
  norm_num [Elastostatic.volForm, rodMat, detForm, edge, FeModel.cellX, rod, cellNode, FeModel.npc, at0, atN]

/-- The norm of the rod. -/
theorem rod_norm (post : Post) (p : Int) {S : List (List ℝ)} (hS : ∀ u ∈ S, ∃ a b, u = [a, b]) (r dt : ℝ) :
    physicsValue rod (stressPNorm abs (fun _ => tensorPNormFunctor fun a q => a ^ q) (p : ℝ) (fun _ => rodMat r)
      (fun k _ => List.range (rod.size (rod.part k)))) post (seqSch rod 2) S [1, 1] [0, 1] dt =
      .ok (post.val (∑ t ∈ range S.length,
        ((at0 (S[t]?.getD []) 1 - at0 (S[t]?.getD []) 0 - r) ^ 2) ^ ((p : ℝ) / 2))) := by
  have hp : toOrdinal (p : ℝ) = p := by unfold toOrdinal; split_ifs <;> simp
  have h := rod_mech r
  rw [value_of_form rod_ok (stressPNorm_computes abs (fun k hk => h.d3 hk) (fun k s z x hk hp => h.wsOk hk hp)
    (form := fun k => tensorForm (fun a q => a ^ q) (numVoigt (rodMat r).d) (toOrdinal (p : ℝ)))
    (fun k => tensorPNorm_form _ _ _) (by
      intro k σ σ' v hσ
      unfold tensorForm
      rw [sum_congr rfl fun t ht => by rw [hσ t (mem_range.1 ht)]]) (fun k _ => IsSchedule.range _) dt) (norm_local h)
    (fun u hu => by obtain ⟨a, b, rfl⟩ := hS u hu; rfl) rfl rfl (seqSch_ok rod _ _)]
  congr 2
  rw [show rod.domains.length = 1 from rfl, sum_range_one]
  refine sum_congr rfl fun t ht => ?_
  rw [show rod.size (rod.part 0) = 1 from rfl, sum_range_one, show gcell (rod.part 0) 0 = 0 by decide]
  have hm : S[t]?.getD [] ∈ S := by
    rw [List.getElem?_eq_getElem (mem_range.1 ht)]
    exact List.getElem_mem _
  obtain ⟨a, b, e⟩ := hS _ hm
  rw [e]
  unfold tensorForm
  rw [rod_vol, mul_one, show numVoigt (rodMat r).d = 1 from rfl, sum_range_one, rod_stress, hp, sq]
  rfl

/-- A case of C52: on the rod the norm is not zero. -/
example (order : Nat → List Nat) (dt : ℝ) :
    physicsValue rod (stressPNorm abs (fun _ => tensorPNormFunctor fun a q => a ^ q) ((3 : Int) : ℝ) (fun _ => rodMat 0)
      (fun k _ => List.range (rod.size (rod.part k)))) (normPost (3 : Int) order) (seqSch rod 2) [[0, 1]] [1, 1] [0, 1]
      dt = .ok 1 := by
  rw [rod_norm _ 3 (by simp)]
  simp [normPost, at0]

/-- A state in which the residual of the rod vanishes: strain and reference strain are equal. -/
theorem rod_stress_free (r : ℝ) : weightedStress (rodMat r) (cellS rod [0, r] 0) (rod.cellZ [1, 1] 0)
    (rod.cellX [0, 1] 0) 0 = 0 := by
  rw [rod_stress]
  ring

/-- **C52 is false** with a reference strain: the criterion is built without it
(`LinearStress` from the stiffness only), so a body without stress has a stress norm of one. -/
theorem C52_reference_false (order : Nat → List Nat) (dt : ℝ) :
    (∀ c t, c < rod.nc → t < numVoigt (rodMat 1).d → weightedStress (rodMat 1) (cellS rod [0, 1] c)
      (rod.cellZ [1, 1] c) (rod.cellX [0, 1] c) t = 0) ∧
    physicsValue rod (stressPNorm abs (fun _ => tensorPNormFunctor fun a q => a ^ q) ((2 : Int) : ℝ)
      (fun _ => noReference (rodMat 1)) (fun k _ => List.range (rod.size (rod.part k)))) (normPost (2 : Int) order)
      (seqSch rod 2) [[0, 1]] [1, 1] [0, 1] dt = .ok 1 := by
  refine ⟨?_, ?_⟩
  · intro c t hc ht
    have hc : c < 1 := hc
    have ht : t < 1 := ht
    interval_cases c
    interval_cases t
    exact rod_stress_free 1
  · have e : (fun _ => noReference (rodMat 1) : Nat → Elastostatic ℝ) = fun _ => rodMat 0 := by
      funext _
      simp [noReference, rodMat]
    rw [e, rod_norm _ 2 (by simp)]
    simp [normPost, at0]

/-- **C53 is false** with a reference strain: the reported elastic energy can be negative. -/
theorem C53_energy_negative (dt : ℝ) : ∃ v, physicsValue rod (elasticEnergy abs (1 / 2) (fun _ => rodMat 1)
    (fun k => List.range (rod.size (rod.part k)))) Post.none (seqSch rod 2) [[0, 1 / 2]] [1, 1] [0, 1] dt = .ok v ∧
    v < 0 := by
  have h := rod_mech 1
  have hv := value_of_form rod_ok (energy_computes h (eR := fun k => List.range (rod.size (rod.part k)))
    (fun k => IsSchedule.range _) (1 / 2) dt) (energy_local h (1 / 2)) (S := [[0, 1 / 2]]) (z := [1, 1]) (x := [0, 1])
    (sv := seqSch rod 2) (by simp [rod]) rfl rfl (seqSch_ok rod _ _) Post.none
  rw [show rod.domains.length = 1 from rfl, sum_range_one, List.length_singleton, sum_range_one,
    show rod.size (rod.part 0) = 1 from rfl, sum_range_one, show gcell (rod.part 0) 0 = 0 by decide,
    List.getElem?_cons_zero, Option.getD_some] at hv
  have e : energyOf abs (1 / 2) (rodMat 1) (cellS rod [0, 1 / 2] 0) (rod.cellZ [1, 1] 0) (rod.cellX [0, 1] 0) =
      -(1 / 8) := by
    unfold energyOf
    rw [rod_vol, show numVoigt (rodMat 1).d = 1 from rfl, sum_range_one, rod_stress, rod_strain]
    norm_num
  rw [e] at hv
  exact ⟨-(1 / 8), hv, by norm_num⟩

/-- Displacement, coordinates and control of the rod. -/
def rodU : Fin (rod.nn * rod.ndof) → ℝ := ![0, 1]
@[inherit_doc rodU] def rodX : Fin (rod.nn * rod.dim) → ℝ := ![0, 1]
@[inherit_doc rodU] def rodZ : Fin rod.nn → ℝ := ![1, 1]

theorem rodU_list : List.ofFn rodU = [0, 1] := rfl
theorem rodX_list : List.ofFn rodX = [0, 1] := rfl
theorem rodZ_list : List.ofFn rodZ = [1, 1] := rfl

/-- The hypotheses of `C51_stressPNorm` on the rod. -/
theorem rod_good : ∀ c, c < rod.nc → goodNorm rod (fun _ => rodMat 0) (fun _ => id)
    (fun _ σ => (∃ t, t < numVoigt (rodMat 0).d ∧ σ t ≠ 0) ∨ 2 ≤ toOrdinal ((2 : Int) : ℝ))
    (cellS rod (List.ofFn rodU) c) (rod.cellZ (List.ofFn rodZ) c) (rod.cellX (List.ofFn rodX) c) := by
  intro c hc
  have hc : c < 1 := hc
  interval_cases c
  rw [rodX_list]
  refine ⟨⟨?_, fun k _ => penOk_id _⟩, fun k _ => .inr ?_⟩
  · show (_ : ℝ) ≠ 0
    norm_num [detForm, edge, FeModel.cellX, rod, cellNode, FeModel.npc, at0, atN]
  · unfold toOrdinal
    norm_num

/-- The criterion of the counterexample: the stress norm with exponent two on the rod. -/
noncomputable def rodNorm : Criterion :=
  physicsCriterion rod
    (stressPNorm abs (fun _ => tensorPNormFunctor fun a q => a ^ q) ((2 : Int) : ℝ) (fun _ => rodMat 0)
      (fun k _ => List.range (rod.size (rod.part k))))
    (stressPNorm Fad.fabs (fun _ => tensorPNormFunctor Fad.rpow) ((2 : Int) : ℝ) (fun _ => (rodMat 0).lift id)
      (fun k _ => List.range (rod.size (rod.part k))))
    (stressPNorm Fad.fabs (fun _ => tensorPNormFunctor Fad.rpow) ((2 : Int) : ℝ) (fun _ => (rodMat 0).lift id)
      (fun k _ => List.range (rod.size (rod.part k))))
    (stressPNorm Fad.fabs (fun _ => tensorPNormFunctor Fad.rpow) ((2 : Int) : ℝ) (fun _ => (rodMat 0).lift id)
      (fun k _ => List.range (rod.size (rod.part k))))
    (normPost ((2 : Int) : ℝ) List.range) (seqSch rod 2) (seqSch rod 2) (seqSch rod 2) (seqSch rod 2)

theorem rodNorm_one (dt : ℝ) :
    Differentiates rodNorm (rod.nn * rod.dim) (rod.nn * rod.ndof) rod.nn [List.ofFn rodU] rodZ rodX 0 rodU dt := by
  refine C51_stressPNorm (M := rod) rod_ok (rod_mech 0) (penF := fun _ => id)
    (fun _ _ => IsSchedule.range _) (fun _ _ => IsSchedule.range _) (fun _ _ => IsSchedule.range _)
    (fun _ _ => IsSchedule.range _) (by norm_num) (fun m => IsSchedule.range m)
    (seqSch_ok rod 1 2) (seqSch_ok rod 1 2) (seqSch_ok rod 1 2) (seqSch_ok rod 1 2) rod_good ?_
  rw [rodU_list, rodZ_list, rodX_list, rod_norm _ 2 (by simp)]
  simp [Post.none, at0]

/-- Both a function and a function with more under the root cannot have the same derivative. -/
theorem root_deriv {f1 f2 : (Fin 2 → ℝ) → ℝ} {L : (Fin 2 → ℝ) →L[ℝ] ℝ}
    (e1 : ∀ᶠ y in nhds ![(0 : ℝ), 1], ((y 1 - y 0) ^ 2) ^ (1 / (2 : ℝ)) = f1 y)
    (e2 : ∀ᶠ y in nhds ![(0 : ℝ), 1], ((y 1 - y 0) ^ 2 + 1) ^ (1 / (2 : ℝ)) = f2 y)
    (hd1 : HasFDerivAt f1 L ![0, 1]) (hd2 : HasFDerivAt f2 L ![0, 1]) : False := by
  have l1 := (hd1.congr_of_eventuallyEq e1).hasLineDerivAt ![(0 : ℝ), 1]
  have l2 := (hd2.congr_of_eventuallyEq e2).hasLineDerivAt ![(0 : ℝ), 1]
  unfold HasLineDerivAt at l1 l2
  simp only [Pi.add_apply, Pi.smul_apply, Matrix.cons_val_zero, Matrix.cons_val_one, smul_eq_mul,
    mul_one, mul_zero, add_zero, sub_zero] at l1 l2
  have hb : HasDerivAt (fun t : ℝ => (1 + t) ^ 2) 2 0 := by
    have := ((hasDerivAt_id (0 : ℝ)).const_add 1).pow 2
    refine this.congr_deriv ?_
    norm_num
  have r1 := hb.rpow_const (p := 1 / 2) (.inl (by norm_num))
  have r2 := (hb.add_const 1).rpow_const (p := 1 / 2) (.inl (by norm_num))
  have q1 := l1.unique r1
  have q2 := l2.unique r2
  rw [q1] at q2
  norm_num at q2
  have h3 : (2 : ℝ) ^ (-(1 / 2) : ℝ) < 1 := Real.rpow_lt_one_of_one_lt_of_neg (by norm_num) (by norm_num)
  linarith [q2]

/-- **C51 is false** for `gradient_u` of a stress norm when the solution has more than one step: the
gradient of a step is scaled with the sum over that step alone, while the value is the root of the sum
over all steps.  A rod of one element, two equal steps; with one step the gradient is right. -/
theorem C51_gradient_u_false (dt : ℝ) :
    Reports (rod.nn * rod.ndof) (fun y => rodNorm.value [y] (List.ofFn rodZ) (List.ofFn rodX) dt)
      (rodNorm.gradU [List.ofFn rodU] (List.ofFn rodZ) (List.ofFn rodX) 0 dt) rodU ∧
    ¬ Reports (rod.nn * rod.ndof) (fun y => rodNorm.value [y, [0, 1]] (List.ofFn rodZ) (List.ofFn rodX) dt)
      (rodNorm.gradU [List.ofFn rodU, [0, 1]] (List.ofFn rodZ) (List.ofFn rodX) 0 dt) rodU := by
  have hD := (rodNorm_one dt).gradU
  refine ⟨hD, fun hR => ?_⟩
  obtain ⟨f1, g1, hf1, hg1, -, hd1⟩ := hD
  obtain ⟨f2, g2, hf2, hg2, -, hd2⟩ := hR
  have hg : g1 = g2 := by
    have : Res.ok g1 = Res.ok g2 := by
      rw [← hg1, ← hg2]
      rfl
    exact Res.ok.inj this
  subst hg
  have hl : ∀ y : Fin (rod.nn * rod.ndof) → ℝ, ∃ a b, List.ofFn y = [a, b] ∧ a = y (0 : Fin 2) ∧ b = y (1 : Fin 2) :=
    fun y => ⟨_, _, rfl, rfl, rfl⟩
  refine root_deriv (f1 := f1) (f2 := f2) ?_ ?_ hd1 hd2
  · filter_upwards [hf1] with y hy
    obtain ⟨a, b, e, ha, hb⟩ := hl y
    have hy2 : rodNorm.value [[a, b]] (List.ofFn rodZ) (List.ofFn rodX) dt = Res.ok (f1 y) := by
      rw [← e]; exact hy
    have hy' := Res.ok.inj ((rod_norm (normPost ((2 : Int) : ℝ) List.range) 2 (S := [[a, b]]) (by simp) 0 dt).symm.trans hy2)
    rw [← hy', ← ha, ← hb]
    simp [normPost, at0]
  · filter_upwards [hf2] with y hy
    obtain ⟨a, b, e, ha, hb⟩ := hl y
    have hy2 : rodNorm.value [[a, b], [0, 1]] (List.ofFn rodZ) (List.ofFn rodX) dt = Res.ok (f2 y) := by
      rw [← e]; exact hy
    have hy' := Res.ok.inj ((rod_norm (normPost ((2 : Int) : ℝ) List.range) 2 (S := [[a, b], [0, 1]]) (by simp) 0 dt).symm.trans hy2)
    rw [← hy', ← ha, ← hb]
    simp [normPost, at0, sum_range_succ]

end Plato.Crit
