import Verif.HeatCrit.Cells
import Verif.Crit.NormProps
import Verif.Thermal.Example

/-!
# C87: internal thermal energy and norm of the flux
-/

namespace Plato.HeatCrit
open Finset Plato Plato.Mech Plato.Thermal Plato.Crit

section Fit
variable {M : FeModel} {P : Nat → Thermal ℝ} (h : ThermOk M P)
include h

theorem d3 {k : Nat} (hk : k < M.domains.length) : (P k).d = 1 ∨ (P k).d = 2 ∨ (P k).d = 3 := by
  rw [h.d k hk]; exact h.dim

theorem wsOk {k : Nat} (hk : k < M.domains.length) {R : Type} {s z : V2 R} {x : V3 R} (hh : PartOk M k s z x) :
    WsOk (P k).d 1 s.d0 s z x := by
  have hd := h.d k hk
  have hnp : M.npc = (P k).d + 1 := by rw [FeModel.npc, hd]
  refine ⟨le_rfl, ?_, by rw [hh.s0, hh.z0], ?_, by rw [hh.s0, hh.x0], hh.x1.trans hnp, by rw [hh.x2, hd]⟩
  · rw [hh.s1, hnp, h.ndof]
  · rw [hh.z1, hnp]

theorem good_local {penF : Nat → Fad → Fad} : CritLocal M fun _ Z X => thermGood M P penF Z X :=
  fun _ _ Z Z' X X' _ hZ hX hg => thermGood_local h Z Z' X X' hZ hX hg

theorem energy_local : FormLocal M fun k U Z X => energyForm abs (P k) U Z X := by
  intro k U U' Z Z' X X' hk hU hZ hX
  have hd := h.d k hk
  have hnp : M.npc = (P k).d + 1 := by rw [FeModel.npc, hd]
  exact energyForm_congr (d3 h hk) (fun l hl => hU l (by rw [hnp, h.ndof, Nat.mul_one]; exact hl))
    (fun a ha => hZ a (by omega)) fun a i ha hi => hX a i (by omega) (by omega)

theorem norm_local (p : Int) : FormLocal M fun k U Z X => normForm abs (fun a q => a ^ q) p (P k) U Z X := by
  intro k U U' Z Z' X X' hk hU hZ hX
  have hd := h.d k hk
  have hnp : M.npc = (P k).d + 1 := by rw [FeModel.npc, hd]
  exact normForm_congr (d3 h hk) (fun l hl => hU l (by rw [hnp, h.ndof, Nat.mul_one]; exact hl))
    (fun a ha => hZ a (by omega)) (fun a i ha hi => hX a i (by omega) (by omega)) _ p

variable {penF : Nat → Fad → Fad} {eR eF : Nat → List Nat} (heR : ∀ k, IsSchedule (eR k) (M.size (M.part k)))
  (heF : ∀ k, IsSchedule (eF k) (M.size (M.part k)))

include heR in
theorem energy_computes (dt : ℝ) : Computes M (thermalEnergy abs P eR) dt fun k U Z X => energyForm abs (P k) U Z X := by
  intro k s z x hk hp
  refine (thermalEnergy_ok abs (d3 h hk) (wsOk h hk hp) (by rw [hp.s0]; exact heR k)
    (by rw [List.length_replicate, hp.s0])).mono ?_
  rintro r ⟨hl, hq⟩
  refine ⟨hl.trans hp.s0, fun c hc => ?_⟩
  rw [hq c (by rw [hp.s0]; exact hc), at0_replicate, zero_add]

include heF in
theorem energy_computes_fad (dt : ℝ) : Computes M (thermalEnergy Fad.fabs (fun k => (P k).lift (penF k)) eF) dt
    fun k U Z X => energyForm Fad.fabs ((P k).lift (penF k)) U Z X := by
  intro k s z x hk hp
  refine (thermalEnergy_ok (P := (P k).lift (penF k)) Fad.fabs (d3 h hk) (wsOk h hk hp) (by rw [hp.s0]; exact heF k)
    (by rw [List.length_replicate, hp.s0])).mono ?_
  rintro r ⟨hl, hq⟩
  refine ⟨hl.trans hp.s0, fun c hc => ?_⟩
  rw [hq c (by rw [hp.s0]; exact hc), at0_replicate, zero_add]

include heR heF in
theorem energy_tracks {E : Type} [NormedAddCommGroup E] [NormedSpace ℝ E] (dt : ℝ) (x : E) :
    CritTracks M (thermalEnergy abs P eR) (thermalEnergy Fad.fabs (fun k => (P k).lift (penF k)) eF)
      (fun _ Z X => thermGood M P penF Z X) dt x := by
  refine critTracks_of_form (energy_computes h heR dt) (energy_computes_fad h heF dt) ?_
  intro k N L UF ZF XF UR ZR XR hk hU hZ hX hg
  have hd := h.d k hk
  have hnp : M.npc = (P k).d + 1 := by rw [FeModel.npc, hd]
  refine energyForm_tracks (d3 h hk) (fun l hl => hU l (by rw [hnp, h.ndof, Nat.mul_one]; exact hl))
    (fun n hn => hZ n (by omega)) (fun n i hn hi => hX n i (by omega) (by omega)) ?_ ?_
  · rw [hd]; exact hg.1
  · rw [hd]; exact hg.2 k hk

variable {exponent : ℝ}

include heR in
theorem norm_computes (dt : ℝ) : Computes M (fluxPNorm abs (fun a q => a ^ q) exponent P eR) dt
    fun k U Z X => normForm abs (fun a q => a ^ q) (toOrdinal exponent) (P k) U Z X := by
  intro k s z x hk hp
  have := fluxPNorm_ok abs (d3 h hk) (fun a q => a ^ q) (toOrdinal exponent) (wsOk h hk hp) (order := eR k)
    (by rw [hp.s0]; exact heR k) (result := List.replicate (M.size (M.part k)) 0) (by rw [List.length_replicate, hp.s0])
  rw [← hp.s0] at this ⊢
  exact this

include heF in
theorem norm_computes_fad (dt : ℝ) :
    Computes M (fluxPNorm Fad.fabs Fad.rpow exponent (fun k => (P k).lift (penF k)) eF) dt
      fun k U Z X => normForm Fad.fabs Fad.rpow (toOrdinal exponent) ((P k).lift (penF k)) U Z X := by
  intro k s z x hk hp
  have := fluxPNorm_ok (P := (P k).lift (penF k)) Fad.fabs (d3 h hk) Fad.rpow (toOrdinal exponent) (wsOk h hk hp)
    (order := eF k) (by rw [hp.s0]; exact heF k) (result := List.replicate (M.size (M.part k)) 0)
    (by rw [List.length_replicate, hp.s0])
  rw [← hp.s0] at this ⊢
  exact this

/-- What the norm of the flux needs from a cell: not degenerate, penalty function differentiable, and a flux
that does not vanish unless the exponent is at least two. -/
def goodFlux (M : FeModel) (P : Nat → Thermal ℝ) (penF : Nat → Fad → Fad) (p : Int) (U Z : Nat → ℝ)
    (X : Nat → Nat → ℝ) : Prop :=
  thermGood M P penF Z X ∧ ∀ k, k < M.domains.length →
    (∃ t, t < (P k).d ∧ (P k).fluxForm (P k).law.const U Z X t ≠ 0) ∨ 2 ≤ p

theorem goodFlux_local {p : Int} : CritLocal M (goodFlux M P penF p) := by
  intro U U' Z Z' X X' hU hZ hX hg
  refine ⟨thermGood_local h Z Z' X X' hZ hX hg.1, fun k hk => ?_⟩
  have hd := h.d k hk
  have hnp : M.npc = (P k).d + 1 := by rw [FeModel.npc, hd]
  refine (hg.2 k hk).imp ?_ id
  rintro ⟨t, ht, h0⟩
  refine ⟨t, ht, ?_⟩
  rwa [← fluxForm_congr (d3 h hk) (fun l hl => hU l (by rw [hnp, h.ndof, Nat.mul_one]; exact hl))
    (fun a ha => hZ a (by omega)) (fun a i ha hi => hX a i (by omega) (by omega))]

include heR heF in
theorem norm_tracks {E : Type} [NormedAddCommGroup E] [NormedSpace ℝ E] (dt : ℝ) (x : E) :
    CritTracks M (fluxPNorm abs (fun a q => a ^ q) exponent P eR)
      (fluxPNorm Fad.fabs Fad.rpow exponent (fun k => (P k).lift (penF k)) eF)
      (goodFlux M P penF (toOrdinal exponent)) dt x := by
  refine critTracks_of_form (norm_computes h heR dt) (norm_computes_fad h heF dt) ?_
  intro k N L UF ZF XF UR ZR XR hk hU hZ hX hg
  have hd := h.d k hk
  have hnp : M.npc = (P k).d + 1 := by rw [FeModel.npc, hd]
  refine normForm_tracks (d3 h hk) (fun l hl => hU l (by rw [hnp, h.ndof, Nat.mul_one]; exact hl))
    (fun n hn => hZ n (by omega)) (fun n i hn hi => hX n i (by omega) (by omega)) ?_ ?_ (hg.2 k hk)
  · rw [hd]; exact hg.1.1
  · rw [hd]; exact hg.1.2 k hk

end Fit

/-! ## Values -/

section Value
variable {M : FeModel} (hM : M.Ok) {P : Nat → Thermal ℝ} (h : ThermOk M P)
  {eR : Nat → List Nat} (heR : ∀ k, IsSchedule (eR k) (M.size (M.part k)))
  {sv : Sched} {wv : Nat} {S : List (List ℝ)} {z x : List ℝ} (hS : ∀ u ∈ S, u.length = M.nn * M.ndof)
  (hz : z.length = M.nn) (hx : x.length = M.nn * M.dim) (hsv : sv.Ok M S.length wv)
include h

theorem cellS_eq (u : List ℝ) (cell : Nat) : cellS M u cell = onCell M (at0 u) cell := by
  funext l
  unfold cellS onCell
  rw [h.ndof, cellDof_one]

include hM heR hS hz hx hsv

/-- **C87, value of the energy**: for conductivities that do not depend on temperature the internal thermal
energy is the sum over the steps of the conduction form (C57) of the temperature with itself. -/
theorem C87_energy_partial (hlin : ∀ k, k < M.domains.length → (P k).law.nonlinear = false) (dt : ℝ) :
    physicsValue M (thermalEnergy abs P eR) Post.none sv S z x dt =
      .ok (∑ t ∈ range S.length, conduction M P z x (at0 (S[t]?.getD [])) (at0 (S[t]?.getD []))) := by
  rw [value_of_form hM (energy_computes h heR dt) (energy_local h) hS hz hx hsv]
  congr 1
  unfold Post.none
  dsimp only
  rw [sum_comm]
  refine sum_congr rfl fun t _ => ?_
  unfold conduction
  refine sum_congr rfl fun k hk => sum_congr rfl fun c _ => ?_
  have hk' := mem_range.1 hk
  rw [cellS_eq h]
  unfold energyForm cellConduction Thermal.fluxForm fourier
  simp only [cond_linear (hlin k hk')]
  have : ∀ i ∈ range (P k).d, ∀ (g : Nat → ℝ) (a : ℝ), (-∑ j ∈ range (P k).d, (P k).law.const i j * g j) * a * g i =
      -(a * ∑ j ∈ range (P k).d, g i * (P k).law.const i j * g j) := by
    intro i _ g a
    rw [neg_mul, neg_mul, neg_inj, sum_mul, sum_mul, mul_sum]
    exact sum_congr rfl fun j _ => by ring
  rw [sum_congr rfl fun i hi => this i hi _ _, sum_neg_distrib, ← mul_sum]
  ring

/-- **C87, sign of the energy**: with conductivities that are positive semidefinite it is not negative. -/
theorem C87_nonneg_partial (hlin : ∀ k, k < M.domains.length → (P k).law.nonlinear = false)
    (hw : ∀ k, k < M.domains.length → 0 ≤ (P k).cubWeight)
    (hpen : ∀ k c, k < M.domains.length → c < M.size (M.part k) →
      0 ≤ (P k).pen (meanDensity ((P k).d + 1) (M.cellZ z (gcell (M.part k) c))))
    (hpos : ∀ k (g : Nat → ℝ), k < M.domains.length →
      0 ≤ ∑ i ∈ range (P k).d, ∑ j ∈ range (P k).d, g i * (P k).law.const i j * g j) (dt : ℝ) :
    (physicsValue M (thermalEnergy abs P eR) Post.none sv S z x dt).Sat fun v => 0 ≤ v :=
  ⟨_, C87_energy_partial hM h heR hS hz hx hsv hlin dt, sum_nonneg fun _ _ => conduction_nonneg hlin hw hpen hpos _⟩

/-- Length of the flux of a cell. -/
noncomputable def fluxLength (M : FeModel) (P : Nat → Thermal ℝ) (u z x : List ℝ) (k cell : Nat) : ℝ :=
  Real.sqrt (∑ i ∈ range (P k).d, ((P k).pen (meanDensity ((P k).d + 1) (M.cellZ z cell)) *
    ∑ j ∈ range (P k).d, (P k).law.const i j * (P k).gradT (onCell M (at0 u) cell) (M.cellX x cell) j) ^ 2)

/-- Integral of the `p`-th power of the length of the flux, summed over the steps. -/
noncomputable def fluxSum (M : FeModel) (P : Nat → Thermal ℝ) (p : ℝ) (S : List (List ℝ)) (z x : List ℝ) : ℝ :=
  ∑ k ∈ range M.domains.length, ∑ t ∈ range S.length, ∑ c ∈ range (M.size (M.part k)),
    fluxLength M P (S[t]?.getD []) z x k (gcell (M.part k) c) ^ p * (P k).volForm abs (M.cellX x (gcell (M.part k) c))

theorem norm_value (exponent dt : ℝ) (post : Post) :
    physicsValue M (fluxPNorm abs (fun a q => a ^ q) exponent P eR) post sv S z x dt =
      .ok (post.val (fluxSum M P (toOrdinal exponent) S z x)) := by
  rw [value_of_form hM (norm_computes h heR dt) (norm_local h _) hS hz hx hsv]
  congr 2
  unfold fluxSum
  refine sum_congr rfl fun k _ => sum_congr rfl fun t _ => sum_congr rfl fun c _ => ?_
  unfold normForm tensorForm fluxLength
  congr 1
  rw [Real.sqrt_eq_rpow, ← Real.rpow_mul (sum_nonneg fun _ _ => sq_nonneg _), cellS_eq h]
  have : ∀ i, (P k).fluxForm (P k).law.const (onCell M (at0 (S[t]?.getD [])) (gcell (M.part k) c))
      (M.cellZ z (gcell (M.part k) c)) (M.cellX x (gcell (M.part k) c)) i *
      (P k).fluxForm (P k).law.const (onCell M (at0 (S[t]?.getD [])) (gcell (M.part k) c))
      (M.cellZ z (gcell (M.part k) c)) (M.cellX x (gcell (M.part k) c)) i =
      ((P k).pen (meanDensity ((P k).d + 1) (M.cellZ z (gcell (M.part k) c))) *
    ∑ j ∈ range (P k).d, (P k).law.const i j * (P k).gradT (onCell M (at0 (S[t]?.getD [])) (gcell (M.part k) c))
      (M.cellX x (gcell (M.part k) c)) j) ^ 2 := by
    intro i
    unfold Thermal.fluxForm fourier
    ring
  rw [sum_congr rfl fun i _ => this i]
  congr 1
  ring

/-- **C87, value of the norm**: the norm of the flux whose exponent is the integer part of the exponent of the
input. -/
theorem C87_norm (exponent dt : ℝ) (order : Nat → List Nat) :
    physicsValue M (fluxPNorm abs (fun a q => a ^ q) exponent P eR) (fluxPost exponent order) sv S z x dt =
      .ok (fluxSum M P (toOrdinal exponent) S z x ^ (1 / (toOrdinal exponent : ℝ))) :=
  norm_value hM h heR hS hz hx hsv exponent dt _

omit hM h heR hS hz hx hsv in
theorem fluxSum_nonneg (hw : ∀ k, k < M.domains.length → 0 ≤ (P k).cubWeight) (p : ℝ) : 0 ≤ fluxSum M P p S z x :=
  sum_nonneg fun k hk => sum_nonneg fun _ _ => sum_nonneg fun _ _ =>
    mul_nonneg (Real.rpow_nonneg (Real.sqrt_nonneg _) _) (mul_nonneg (abs_nonneg _) (hw k (mem_range.1 hk)))

omit hM h heR hS hz hx hsv in
theorem fluxLength_scale (a : ℝ) (u : List ℝ) (k cell : Nat) :
    fluxLength M P (u.map fun v => a * v) z x k cell = |a| * fluxLength M P u z x k cell := by
  have e : onCell M (at0 (u.map fun v => a * v)) cell =
      fun l => a * onCell M (at0 u) cell l + 0 * onCell M (at0 u) cell l := by
    funext l
    simp only [onCell, at0, List.getElem?_map, zero_mul, add_zero]
    cases u[cellNode M.npc M.c2n cell l]? <;> simp
  have e2 : ∀ i, (P k).pen (meanDensity ((P k).d + 1) (M.cellZ z cell)) *
      ∑ j ∈ range (P k).d, (P k).law.const i j *
        (P k).gradT (onCell M (at0 (u.map fun v => a * v)) cell) (M.cellX x cell) j =
      a * ((P k).pen (meanDensity ((P k).d + 1) (M.cellZ z cell)) *
        ∑ j ∈ range (P k).d, (P k).law.const i j * (P k).gradT (onCell M (at0 u) cell) (M.cellX x cell) j) := by
    intro i
    rw [e]
    simp only [gradT_lin, mul_sum]
    exact sum_congr rfl fun j _ => by ring
  unfold fluxLength
  simp only [e2, mul_pow, ← mul_sum]
  rw [Real.sqrt_mul (sq_nonneg a), Real.sqrt_sq_eq_abs]

/-- **C87, homogeneity**: whatever the exponent of the input, if its integer part is not zero, multiplying all
temperatures by a number multiplies the norm by its absolute value. -/
theorem C87_norm_homogeneous (hw : ∀ k, k < M.domains.length → 0 ≤ (P k).cubWeight) {exponent : ℝ}
    (hp : toOrdinal exponent ≠ 0) (dt : ℝ) (order : Nat → List Nat) (a : ℝ) :
    ∃ v, physicsValue M (fluxPNorm abs (fun a q => a ^ q) exponent P eR) (fluxPost exponent order) sv S z x dt = .ok v ∧
      0 ≤ v ∧ physicsValue M (fluxPNorm abs (fun a q => a ^ q) exponent P eR) (fluxPost exponent order) sv
        (S.map fun u => u.map fun v => a * v) z x dt = .ok (|a| * v) := by
  have hS' : ∀ u ∈ S.map fun u => u.map fun v => a * v, u.length = M.nn * M.ndof := by
    intro u hu
    obtain ⟨w, hw, rfl⟩ := List.mem_map.1 hu
    rw [List.length_map]
    exact hS w hw
  have hsv' : sv.Ok M (S.map fun u => u.map fun v => a * v).length wv := by rw [List.length_map]; exact hsv
  have hp' : (toOrdinal exponent : ℝ) ≠ 0 := by exact_mod_cast hp
  refine ⟨_, C87_norm hM h heR hS hz hx hsv exponent dt order, Real.rpow_nonneg (fluxSum_nonneg hw _) _, ?_⟩
  rw [C87_norm hM h heR hS' hz hx hsv' exponent dt order]
  congr 1
  have e : fluxSum M P (toOrdinal exponent) (S.map fun u => u.map fun v => a * v) z x =
      |a| ^ (toOrdinal exponent : ℝ) * fluxSum M P (toOrdinal exponent) S z x := by
    unfold fluxSum
    simp only [mul_sum, List.length_map]
    refine sum_congr rfl fun k _ => sum_congr rfl fun t ht => sum_congr rfl fun c _ => ?_
    have e1 : (S.map fun u => u.map fun v => a * v)[t]?.getD [] = (S[t]?.getD []).map fun v => a * v := by
      rw [List.getElem?_map, List.getElem?_eq_getElem (mem_range.1 ht)]
      rfl
    rw [e1, fluxLength_scale, Real.mul_rpow (abs_nonneg a) (by exact Real.sqrt_nonneg _), mul_assoc]
  rw [e, Real.mul_rpow (Real.rpow_nonneg (abs_nonneg _) _) (fluxSum_nonneg hw _), ← Real.rpow_mul (abs_nonneg _),
    mul_one_div, div_self hp', Real.rpow_one]

/-- **C87 is false** for conductivities given in the input as temperature dependent: energy and norm of the flux
are zero for all temperatures, on any mesh. -/
theorem C87_nonlinear_false (hin : ∀ k, k < M.domains.length → ∃ e, FluxLaw.ofInput (P k).d true e = .ok (P k).law)
    (dt : ℝ) {exponent : ℝ} (hp : toOrdinal exponent ≠ 0) (order : Nat → List Nat) :
    physicsValue M (thermalEnergy abs P eR) Post.none sv S z x dt = .ok 0 ∧
    physicsValue M (fluxPNorm abs (fun a q => a ^ q) exponent P eR) (fluxPost exponent order) sv S z x dt = .ok 0 := by
  have hp' : (toOrdinal exponent : ℝ) ≠ 0 := by exact_mod_cast hp
  have hz' : ∀ k, k < M.domains.length → ∀ i j, (P k).law.const i j = 0 := by
    intro k hk
    obtain ⟨e, he⟩ := hin k hk
    exact ofInput_const he
  refine ⟨?_, ?_⟩
  · rw [value_of_form hM (energy_computes h heR dt) (energy_local h) hS hz hx hsv]
    congr 1
    unfold Post.none
    dsimp only
    refine sum_eq_zero fun k hk => sum_eq_zero fun t _ => sum_eq_zero fun c _ => ?_
    unfold energyForm Thermal.fluxForm fourier
    simp [hz' k (mem_range.1 hk)]
  · rw [C87_norm hM h heR hS hz hx hsv]
    have : fluxSum M P (toOrdinal exponent) S z x = 0 := by
      refine sum_eq_zero fun k hk => sum_eq_zero fun t _ => sum_eq_zero fun c _ => ?_
      unfold fluxLength
      simp [hz' k (mem_range.1 hk), zero_zpow _ hp]
    rw [this, Real.zero_rpow (one_div_ne_zero hp')]

end Value

section Work
variable {M : FeModel} (hM : M.Ok) {P : Nat → Thermal ℝ} (h : ThermOk M P)
  {eR : Nat → List Nat} (heR : ∀ k, IsSchedule (eR k) (M.size (M.part k)))
  {eS : Nat → Nat → List Nat} (heS : ∀ k j, IsSchedule (eS k j) (M.size (M.part k)))
  {sv : Sched} {wv : Nat} {u z x : List ℝ} (hu : u.length = M.nn * M.ndof)
  (hz : z.length = M.nn) (hx : x.length = M.nn * M.dim) (hsv : sv.Ok M 1 wv)
  {sch : Nat → Nat → List Nat} (hs : SchedOk M sch (M.npc * M.ndof))
include hM h heR heS hu hz hx hsv hs

/-- **C87, energy and residual**: the internal thermal energy of a temperature is the work of the residual on it
plus the heat supplied, so in equilibrium it is the heat supplied weighted with the temperature. -/
theorem C87_work_partial (hlin : ∀ k, k < M.domains.length → (P k).law.nonlinear = false) (dt : ℝ) :
    ∃ r v, M.value (thermostatic abs M P eS) sch u z x = .ok r ∧
      physicsValue M (thermalEnergy abs P eR) Post.none sv [u] z x dt = .ok v ∧
      v = ∑ q ∈ range (M.nn * M.ndof), at0 r q * at0 u q + source M P z (at0 u) := by
  obtain ⟨r, e, -, hw⟩ := C57_work hM h heS hu hz hx hs
  refine ⟨r, _, e, C87_energy_partial hM h heR (by simpa using hu) hz hx hsv hlin dt, ?_⟩
  rw [hw (at0 u), sub_add_cancel]
  simp

end Work

/-! ## Derivatives -/

section Derivatives
variable {M : FeModel} (hM : M.Ok) {P : Nat → Thermal ℝ} (h : ThermOk M P) {penF : Nat → Fad → Fad}
  {eR eX eU eZ : Nat → List Nat} (heR : ∀ k, IsSchedule (eR k) (M.size (M.part k)))
  (heX : ∀ k, IsSchedule (eX k) (M.size (M.part k))) (heU : ∀ k, IsSchedule (eU k) (M.size (M.part k)))
  (heZ : ∀ k, IsSchedule (eZ k) (M.size (M.part k))) {sv sx su sz : Sched} {wv : Nat} {S : List (List ℝ)}
  {z : Fin M.nn → ℝ} {x : Fin (M.nn * M.dim) → ℝ} {u : Fin (M.nn * M.ndof) → ℝ} {j : Nat}
include hM h heR heX heU heZ

/-- **C87, derivatives of the energy.** -/
theorem C87_energy_gradient (dt : ℝ) (hj : S[j]? = some (List.ofFn u)) (hS : ∀ u ∈ S, u.length = M.nn * M.ndof)
    (hgood : ∀ c, c < M.nc → thermGood M P penF (M.cellZ (List.ofFn z) c) (M.cellX (List.ofFn x) c))
    (hsv : sv.Ok M S.length wv) (hsx : sx.Ok M S.length (M.npc * M.dim)) (hsu : su.Ok M 1 (M.npc * M.ndof))
    (hsz : sz.Ok M S.length (M.npc * 1)) :
    Differentiates (physicsCriterion M (thermalEnergy abs P eR)
      (thermalEnergy Fad.fabs (fun k => (P k).lift (penF k)) eX)
      (thermalEnergy Fad.fabs (fun k => (P k).lift (penF k)) eU)
      (thermalEnergy Fad.fabs (fun k => (P k).lift (penF k)) eZ) Post.none sv sx su sz)
      (M.nn * M.dim) (M.nn * M.ndof) M.nn S z x j u dt :=
  C51_differentiates hM (good_local h) hj hS (energy_tracks h heR heX dt _) (energy_tracks h heR heU dt _)
    (energy_tracks h heR heZ dt _) (fun _ _ c hc => hgood c hc) hsv hsx hsu hsz (.inr rfl)
    fun m v _ _ => Post.none_ok m v

/-- **C87, derivatives of the norm of the flux**: one state, any exponent whose integer part is not zero,
wherever the sum is not zero and the flux does not vanish in any cell or the exponent is at least two. -/
theorem C87_norm_gradient {exponent : ℝ} (he : toOrdinal exponent ≠ 0) {order : Nat → List Nat}
    (ho : ∀ m, IsSchedule (order m) m) (dt : ℝ)
    (hgood : ∀ c, c < M.nc → goodFlux M P penF (toOrdinal exponent) (cellS M (List.ofFn u) c)
      (M.cellZ (List.ofFn z) c) (M.cellX (List.ofFn x) c))
    (hsv : sv.Ok M 1 wv) (hsx : sx.Ok M 1 (M.npc * M.dim)) (hsu : su.Ok M 1 (M.npc * M.ndof))
    (hsz : sz.Ok M 1 (M.npc * 1))
    (hv0 : fluxSum M P (toOrdinal exponent) [List.ofFn u] (List.ofFn z) (List.ofFn x) ≠ 0) :
    Differentiates (physicsCriterion M (fluxPNorm abs (fun a q => a ^ q) exponent P eR)
      (fluxPNorm Fad.fabs Fad.rpow exponent (fun k => (P k).lift (penF k)) eX)
      (fluxPNorm Fad.fabs Fad.rpow exponent (fun k => (P k).lift (penF k)) eU)
      (fluxPNorm Fad.fabs Fad.rpow exponent (fun k => (P k).lift (penF k)) eZ) (fluxPost exponent order) sv sx su sz)
      (M.nn * M.dim) (M.nn * M.ndof) M.nn [List.ofFn u] z x 0 u dt := by
  have he' : (toOrdinal exponent : ℝ) ≠ 0 := by exact_mod_cast he
  refine C51_differentiates hM (goodFlux_local h) rfl (by simp) (norm_tracks h heR heX dt _)
    (norm_tracks h heR heU dt _) (norm_tracks h heR heZ dt _) ?_ hsv hsx hsu hsz (.inl rfl) ?_
  · intro u' hu' c hc
    rw [List.mem_singleton.1 hu']
    exact hgood c hc
  · intro m v hv _
    refine normPost_ok (exponent := (toOrdinal exponent : ℝ)) he' (ho m) ?_
    rw [norm_value hM h heR (by simp) List.length_ofFn List.length_ofFn hsv, Res.ok.injEq] at hv
    rw [← hv]
    exact hv0

end Derivatives

end Plato.HeatCrit
