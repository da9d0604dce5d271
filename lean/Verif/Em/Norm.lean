import Verif.Em.NormModel
import Verif.Em.Output
import Verif.Crit.NormProps

/-!
# Norm of the stress in electromechanics (C115)
-/

namespace Plato.Em
open Finset Plato Plato.Mech Plato.Thermal Plato.Dyn Plato.Crit
open Plato.Tm (slab slab_ok slabX slab_det)

/-! ## Closed form -/

section Cell
variable {R : Type} [CommRing R] [Div R] (fabs : R → R) {P : Em R} (hd : P.d = 1 ∨ P.d = 2 ∨ P.d = 3) {nc : Nat}
  {state control : V2 R} {config : V3 R} (hw : WsOk P.d (P.d + 1) nc state control config)
include hd hw

theorem normCell_ok {c : Nat} (hc : c < nc) {w : EViews R} (h : w.Ok P.d nc) (h0 : ∀ t, w.strain.e c t = 0) :
    (P.normCell fabs state control config c w).Sat fun w' => w'.Ok P.d nc ∧
      at0 w'.vol c = P.volForm fabs (config.e c) ∧
      (∀ t, t < numVoigt P.d → w'.stress.e c t = P.stressForm (state.e c) (control.e c) (config.e c) t) ∧
      ∀ r, r ≠ c → Same r w w' := by
  unfold Em.normCell
  refine Res.Sat.bind (front_ok fabs hd hw hc h h0) ?_
  rintro w1 ⟨k1, k2, k3, k4⟩
  have s0 := k1.s0
  have s1 := k1.s1
  have z0 := hw.z0
  rw [applyWeighting_ok (by omega) hw.z1 (by omega) (by omega), Res.ok_bind, Res.pure_eq, Res.sat_ok]
  refine ⟨⟨k1.g0, k1.g1, k1.g2, k1.v, k1.e0, k1.e1, k1.t0, k1.t1, k1.s0, k1.s1, k1.f0, k1.f1⟩, k2.vol, ?_, ?_⟩
  · intro t ht
    simp only [V2.row, if_true]
    rw [if_pos ht, k3.stress t ht]
    rfl
  · intro r hr
    refine (k4 r hr).trans ⟨rfl, rfl, rfl, rfl, ?_, rfl⟩
    simp only [V2.row, hr, if_false]

theorem emNorm_ok {norm : Nat → Int → Nat → List R → V2 R → List R → Res (List R)} {p : Int}
    {form : (Nat → R) → R → R} (hn : NormForm norm (numVoigt P.d) p form)
    (hform : ∀ σ σ' v, (∀ t, t < numVoigt P.d → σ t = σ' t) → form σ v = form σ' v) {o1 o2 : List Nat}
    (h1 : IsSchedule o1 nc) (h2 : IsSchedule o2 nc) {result : List R} (hr : result.length = nc) :
    (parFor o1 (EViews.new P.d nc) (P.normCell fabs state control config) >>= fun w =>
      parFor o2 result fun c r => norm (numVoigt P.d) p c r w.stress w.vol).Sat fun r => r.length = nc ∧
      ∀ c, c < nc → at0 r c = form (P.stressForm (state.e c) (control.e c) (config.e c))
        (P.volForm fabs (config.e c)) := by
  refine Res.Sat.bind (parFor_sched h1 (fun D (w : EViews R) => w.Ok P.d nc ∧
    (∀ c, c ∉ D → ∀ t, w.strain.e c t = 0) ∧ ∀ c ∈ D, at0 w.vol c = P.volForm fabs (config.e c) ∧
      ∀ t, t < numVoigt P.d → w.stress.e c t = P.stressForm (state.e c) (control.e c) (config.e c) t)
    ⟨EViews.new_ok _ _, fun _ _ _ => rfl, by simp⟩ ?_) ?_
  · rintro D c w hc hD - ⟨hok, hz, hp⟩
    refine (normCell_ok fabs hd hw hc hok (hz c hD)).mono ?_
    rintro w' ⟨hok', hv, hss, hf⟩
    refine ⟨hok', ?_, ?_⟩
    · intro r' hr' t
      have hne : r' ≠ c := by rintro rfl; exact hr' (mem_insert_self _ _)
      rw [(hf r' hne).strain]
      exact hz r' (fun h => hr' (mem_insert_of_mem h)) t
    · intro r' hr'
      rcases mem_insert.1 hr' with rfl | hr2
      · exact ⟨hv, hss⟩
      · have hne : r' ≠ c := by rintro rfl; exact hD hr2
        rw [(hf r' hne).vol, (hf r' hne).stress]
        exact hp r' hr2
  · rintro w ⟨hok, -, hp⟩
    have b0 := hok.s0
    have b1 := hok.s1
    have b4 := hok.v
    refine parFor_map h2 (fun c _ => form (P.stressForm (state.e c) (control.e c) (config.e c))
        (P.volForm fabs (config.e c))) ?_ hr
    intro c y hc hy
    rw [hn c y _ _ (by omega) (by omega) (by omega) (by omega), (hp c (mem_range.2 hc)).1,
      hform _ _ _ (hp c (mem_range.2 hc)).2]

end Cell

section Row
variable {R : Type} [CommRing R] [Div R] {fabs : R → R} {M : FeModel} {P : Nat → Em R} {exponent : ℝ}
  (hdim : M.dim = 1 ∨ M.dim = 2 ∨ M.dim = 3) (hndof : M.ndof = M.dim + 1)
  (hd : ∀ k, k < M.domains.length → (P k).d = M.dim)
include hdim hndof hd

theorem emNorm_computes {norm : Nat → Nat → Int → Nat → List R → V2 R → List R → Res (List R)}
    {form : Nat → (Nat → R) → R → R}
    (hn : ∀ k, NormForm (norm k) (numVoigt (P k).d) (toOrdinal exponent) (form k))
    (hform : ∀ k σ σ' v, (∀ t, t < numVoigt (P k).d → σ t = σ' t) → form k σ v = form k σ' v)
    {e : Nat → Nat → List Nat} (he : ∀ k j, IsSchedule (e k j) (M.size (M.part k))) (dt : ℝ) :
    Computes M (emStressPNorm fabs norm exponent P e) dt fun k U Z X =>
      form k ((P k).stressForm U Z X) ((P k).volForm fabs X) := by
  intro k s z x hk hp
  have hdk := hd k hk
  have hnp : M.npc = (P k).d + 1 := by rw [FeModel.npc, hdk]
  have hnd : M.npc * M.ndof = ((P k).d + 1) * ((P k).d + 1) := by rw [hndof, hnp, hdk]
  have := emNorm_ok fabs (P := P k) (nc := s.d0) (state := s) (control := z) (config := x) (by rw [hdk]; exact hdim)
    ⟨le_rfl, (hp.s1.trans hnd).ge, by rw [hp.s0, hp.z0], (hp.z1.trans hnp).ge, by rw [hp.s0, hp.x0],
      hp.x1.trans hnp, by rw [hp.x2, hdk]⟩ (hn k) (hform k) (o1 := e k 0) (o2 := e k 1)
    (by rw [hp.s0]; exact he k 0) (by rw [hp.s0]; exact he k 1) (result := List.replicate (M.size (M.part k)) 0)
    (by rw [List.length_replicate, hp.s0])
  rw [← hp.s0] at this ⊢
  exact this

theorem emNorm_local {form : Nat → (Nat → R) → R → R} :
    ∀ k U U' Z Z' X X', k < M.domains.length → (∀ l, l < M.npc * M.ndof → U l = U' l) →
      (∀ n, n < M.npc → Z n = Z' n) → (∀ a i, a < M.npc → i < M.dim → X a i = X' a i) →
      form k ((P k).stressForm U Z X) ((P k).volForm fabs X) =
        form k ((P k).stressForm U' Z' X') ((P k).volForm fabs X') := by
  intro k U U' Z Z' X X' hk hU hZ hX
  have hdk := hd k hk
  have hnp : M.npc = (P k).d + 1 := by rw [FeModel.npc, hdk]
  have hnd : M.npc * M.ndof = ((P k).d + 1) * ((P k).d + 1) := by rw [hndof, hnp, hdk]
  have h3 : (P k).d = 1 ∨ (P k).d = 2 ∨ (P k).d = 3 := by rw [hdk]; exact hdim
  have hX' : ∀ a i, a < (P k).d + 1 → i < (P k).d → X a i = X' a i := fun a i ha hi => hX a i (by omega) (by omega)
  rw [funext fun t => emStress_congr h3 (fun l hl => hU l (by omega)) (fun n hn => hZ n (by omega)) hX' t,
    emVol_congr h3 hX']

end Row

/-! ## Value -/

/-- Euclidean length of the Voigt vector of the penalised stress of a cell. -/
noncomputable def emStressLength (M : FeModel) (P : Nat → Em ℝ) (u z x : List ℝ) (k cell : Nat) : ℝ :=
  Real.sqrt (∑ t ∈ range (numVoigt (P k).d),
    ((P k).pen (meanDensity ((P k).d + 1) (M.cellZ z cell)) *
      (P k).law.stressOf (P k).d ((P k).strainForm (cellS M u cell) (M.cellX x cell))
        ((P k).fieldForm (cellS M u cell) (M.cellX x cell)) t) ^ 2)

/-- The sum whose root the criterion reports. -/
noncomputable def emNormSum (M : FeModel) (P : Nat → Em ℝ) (p : Int) (S : List (List ℝ)) (z x : List ℝ) : ℝ :=
  ∑ k ∈ range M.domains.length, ∑ t ∈ range S.length, ∑ c ∈ range (M.size (M.part k)),
    emStressLength M P (S[t]?.getD []) z x k (gcell (M.part k) c) ^ (p : ℝ) *
      (P k).volForm abs (M.cellX x (gcell (M.part k) c))

/-- The evaluator with the plain norm. -/
noncomputable abbrev plainNorm (exponent : ℝ) (P : Nat → Em ℝ) (e : Nat → Nat → List Nat) : ScalarEvaluator ℝ :=
  emStressPNorm abs (fun _ => tensorPNormFunctor fun a q => a ^ q) exponent P e

/-- The same with automatic differentiation values. -/
noncomputable abbrev plainNormF (exponent : ℝ) (P : Nat → Em ℝ) (penF : Nat → Fad → Fad) (e : Nat → Nat → List Nat) :
    ScalarEvaluator Fad :=
  emStressPNorm Fad.fabs (fun _ => tensorPNormFunctor Fad.rpow) exponent (fun k => (P k).lift (penF k)) e

/-- The evaluator with the weighted norm, list "Normalize" of type "Scalar". -/
noncomputable abbrev weightNorm (exponent spw ref : ℝ) (P : Nat → Em ℝ) (e : Nat → Nat → List Nat) :
    ScalarEvaluator ℝ :=
  emStressPNorm abs (fun _ => weightedNormFunctor (fun a q => a ^ q) Real.sqrt spw ref) exponent P e

/-- The same with automatic differentiation values. -/
noncomputable abbrev weightNormF (exponent spw ref : ℝ) (P : Nat → Em ℝ) (penF : Nat → Fad → Fad)
    (e : Nat → Nat → List Nat) : ScalarEvaluator Fad :=
  emStressPNorm Fad.fabs (fun _ => weightedNormFunctor Fad.rpow sqrtFad (Fad.const spw) (Fad.const ref)) exponent
    (fun k => (P k).lift (penF k)) e

section Value
variable {M : FeModel} (hM : M.Ok) {P : Nat → Em ℝ} (h : EmOk M P)
  {eR : Nat → Nat → List Nat} (heR : ∀ k j, IsSchedule (eR k j) (M.size (M.part k)))
  {sv : Sched} {wv : Nat} {S : List (List ℝ)} {z x : List ℝ} (hS : ∀ u ∈ S, u.length = M.nn * M.ndof)
  (hz : z.length = M.nn) (hx : x.length = M.nn * M.dim) (hsv : sv.Ok M S.length wv)
include hM h heR hS hz hx hsv

/-- **C115, value**: the exponent inside the sum is the integer part of the exponent of the root. -/
theorem C115_value (exponent dt : ℝ) (order : Nat → List Nat) :
    physicsValue M (plainNorm exponent P eR) (normPost exponent order) sv S z x dt =
      .ok (emNormSum M P (toOrdinal exponent) S z x ^ (1 / exponent)) := by
  rw [value_of_form hM (emNorm_computes h.dim h.ndof h.d
    (form := fun k => tensorForm (fun a q => a ^ q) (numVoigt (P k).d) (toOrdinal exponent))
    (fun k => tensorPNorm_form _ _ _) (by
      intro k σ σ' v hσ
      unfold tensorForm
      rw [sum_congr rfl fun t ht => by rw [hσ t (mem_range.1 ht)]]) heR dt)
    (emNorm_local h.dim h.ndof h.d) hS hz hx hsv]
  congr 1
  show _ ^ (1 / exponent) = _
  congr 1
  unfold emNormSum
  refine sum_congr rfl fun k _ => sum_congr rfl fun t _ => sum_congr rfl fun c _ => ?_
  unfold tensorForm emStressLength Em.stressForm Em.solidStress
  congr 1
  rw [Real.sqrt_eq_rpow, ← Real.rpow_mul (sum_nonneg fun _ _ => sq_nonneg _)]
  congr 1
  · exact sum_congr rfl fun _ _ => by ring
  · ring

omit hM h heR hS hz hx hsv in
theorem emNormSum_nonneg (hw : ∀ k, k < M.domains.length → 0 ≤ (P k).cubWeight) (p : Int) :
    0 ≤ emNormSum M P p S z x :=
  sum_nonneg fun k hk => sum_nonneg fun _ _ => sum_nonneg fun _ _ =>
    mul_nonneg (Real.rpow_nonneg (Real.sqrt_nonneg _) _) (mul_nonneg (abs_nonneg _) (hw k (mem_range.1 hk)))

omit hM h heR hS hz hx hsv in
/-- The stress is linear in displacements and potentials. -/
theorem emStressLength_scale (a : ℝ) (u : List ℝ) (k cell : Nat) :
    emStressLength M P (u.map fun v => a * v) z x k cell = |a| * emStressLength M P u z x k cell := by
  have e : cellS M (u.map fun v => a * v) cell = fun l => a * cellS M u cell l + 0 * cellS M u cell l := by
    funext l
    simp only [cellS, at0, List.getElem?_map, zero_mul, add_zero]
    cases u[cellDof M.npc M.ndof M.c2n cell l]? <;> simp
  have e1 : (P k).strainForm (cellS M (u.map fun v => a * v) cell) (M.cellX x cell) = fun t =>
      a * (P k).strainForm (cellS M u cell) (M.cellX x cell) t + 0 * (P k).strainForm (cellS M u cell) (M.cellX x cell) t :=
    funext fun t => by rw [e, strain_lin]
  have e2 : (P k).fieldForm (cellS M (u.map fun v => a * v) cell) (M.cellX x cell) = fun t =>
      a * (P k).fieldForm (cellS M u cell) (M.cellX x cell) t + 0 * (P k).fieldForm (cellS M u cell) (M.cellX x cell) t :=
    funext fun t => by rw [e, field_lin]
  unfold emStressLength
  rw [e1, e2]
  simp only [stressOf_lin]
  simp only [zero_mul, add_zero]
  rw [← Real.sqrt_sq_eq_abs, ← Real.sqrt_mul (sq_nonneg a), mul_sum]
  congr 1
  exact sum_congr rfl fun _ _ => by ring

/-- **C115, scaling** for every exponent: what happens when all displacements and potentials are multiplied by a
number. -/
theorem C115_scaling (hw : ∀ k, k < M.domains.length → 0 ≤ (P k).cubWeight) (exponent dt : ℝ)
    (order : Nat → List Nat) (a : ℝ) :
    ∃ v, physicsValue M (plainNorm exponent P eR) (normPost exponent order) sv S z x dt = .ok v ∧ 0 ≤ v ∧
      physicsValue M (plainNorm exponent P eR) (normPost exponent order) sv (S.map fun u => u.map fun v => a * v) z x dt =
        .ok (|a| ^ ((toOrdinal exponent : ℝ) * (1 / exponent)) * v) := by
  have hS' : ∀ u ∈ S.map fun u => u.map fun v => a * v, u.length = M.nn * M.ndof := by
    intro u hu
    obtain ⟨w, hw, rfl⟩ := List.mem_map.1 hu
    rw [List.length_map]
    exact hS w hw
  have hsv' : sv.Ok M (S.map fun u => u.map fun v => a * v).length wv := by rw [List.length_map]; exact hsv
  refine ⟨emNormSum M P (toOrdinal exponent) S z x ^ (1 / exponent), C115_value hM h heR hS hz hx hsv exponent dt order,
    Real.rpow_nonneg (emNormSum_nonneg hw _) _, ?_⟩
  rw [C115_value hM h heR hS' hz hx hsv' exponent dt order]
  have e : emNormSum M P (toOrdinal exponent) (S.map fun u => u.map fun v => a * v) z x =
      |a| ^ (toOrdinal exponent : ℝ) * emNormSum M P (toOrdinal exponent) S z x := by
    unfold emNormSum
    simp only [mul_sum, List.length_map]
    refine sum_congr rfl fun k _ => sum_congr rfl fun t ht => sum_congr rfl fun c _ => ?_
    have e1 : (S.map fun u => u.map fun v => a * v)[t]?.getD [] = (S[t]?.getD []).map fun v => a * v := by
      rw [List.getElem?_map, List.getElem?_eq_getElem (mem_range.1 ht)]
      rfl
    have hl : 0 ≤ emStressLength M P (S[t]?.getD []) z x k (gcell (M.part k) c) := Real.sqrt_nonneg _
    rw [e1, emStressLength_scale, Real.mul_rpow (abs_nonneg a) hl, mul_assoc]
  rw [e, Real.mul_rpow (Real.rpow_nonneg (abs_nonneg _) _) (emNormSum_nonneg hw _), ← Real.rpow_mul (abs_nonneg _)]

/-- **C115**: for an integer exponent the criterion is homogeneous of degree one, as a norm is. -/
theorem C115_homogeneous_partial (hw : ∀ k, k < M.domains.length → 0 ≤ (P k).cubWeight) {p : Int} (hp : p ≠ 0)
    (dt : ℝ) (order : Nat → List Nat) (a : ℝ) :
    ∃ v, physicsValue M (plainNorm p P eR) (normPost p order) sv S z x dt = .ok v ∧ 0 ≤ v ∧
      physicsValue M (plainNorm p P eR) (normPost p order) sv (S.map fun u => u.map fun v => a * v) z x dt =
        .ok (|a| * v) := by
  obtain ⟨v, h1, h2, h3⟩ := C115_scaling hM h heR hS hz hx hsv hw p dt order a
  have : ((toOrdinal (p : ℝ) : Int) : ℝ) * (1 / (p : ℝ)) = 1 := by
    have hp' : (p : ℝ) ≠ 0 := by exact_mod_cast hp
    unfold toOrdinal
    split_ifs <;> simp [hp']
  rw [this, Real.rpow_one] at h3
  exact ⟨v, h1, h2, h3⟩

/-- **C115 is false** for exponents that are not integers: doubling displacements and potentials never doubles the
reported norm, unless the norm is zero. -/
theorem C115_homogeneous_false (hw : ∀ k, k < M.domains.length → 0 ≤ (P k).cubWeight) {exponent : ℝ}
    (h0 : 0 < exponent) (hne : ∀ n : Int, (n : ℝ) ≠ exponent) (dt : ℝ) (order : Nat → List Nat) {v : ℝ} (hv0 : v ≠ 0)
    (hv : physicsValue M (plainNorm exponent P eR) (normPost exponent order) sv S z x dt = .ok v) :
    ∃ v', physicsValue M (plainNorm exponent P eR) (normPost exponent order) sv (S.map fun u => u.map fun v => 2 * v)
      z x dt = .ok v' ∧ v' < 2 * v := by
  obtain ⟨w, h1, h3, h2⟩ := C115_scaling hM h heR hS hz hx hsv hw exponent dt order 2
  rw [hv, Res.ok.injEq] at h1
  subst h1
  refine ⟨_, h2, ?_⟩
  refine mul_lt_mul_of_pos_right ?_ (lt_of_le_of_ne h3 (Ne.symm hv0))
  have ht : (toOrdinal exponent : ℝ) * (1 / exponent) < 1 := by
    rw [mul_one_div, div_lt_one h0]
    unfold toOrdinal
    rw [if_pos h0.le]
    exact lt_of_le_of_ne (Int.floor_le _) (hne _)
  rw [abs_of_pos (by norm_num : (0 : ℝ) < 2)]
  calc (2 : ℝ) ^ ((toOrdinal exponent : ℝ) * (1 / exponent)) < 2 ^ (1 : ℝ) :=
        Real.rpow_lt_rpow_of_exponent_lt (by norm_num) ht
    _ = 2 := Real.rpow_one 2

omit heR hS hz hx hsv in
/-- A translation and a change of the ground leave the stress as it is. -/
theorem emStressLength_ground (hdet : ∀ c, c < M.nc → detForm M.dim (M.cellX x c) ≠ 0) {u u' : List ℝ} {b : Nat → ℝ}
    (hb : ∀ n i, n < M.nn → i < M.ndof → at0 u' (M.ndof * n + i) = at0 u (M.ndof * n + i) + b i) {k c : Nat}
    (hk : k < M.domains.length) (hc : c < M.size (M.part k)) :
    emStressLength M P u' z x k (gcell (M.part k) c) = emStressLength M P u z x k (gcell (M.part k) c) := by
  have hdk := h.d k hk
  have hg := (hM.domOk k).1 c hc
  have hd : (P k).d = 1 ∨ (P k).d = 2 ∨ (P k).d = 3 := by rw [hdk]; exact h.dim
  have hdt : detForm (P k).d (M.cellX x (gcell (M.part k) c)) ≠ 0 := by
    rw [hdk]; exact hdet _ hg
  have hB : ∀ n i, n < (P k).d + 1 → i < (P k).d + 1 →
      cellS M u' (gcell (M.part k) c) (n * ((P k).d + 1) + i) - cellS M u (gcell (M.part k) c) (n * ((P k).d + 1) + i) =
        b i := by
    intro n i hn hi
    rw [hdk] at hn hi ⊢
    unfold cellS cellDof
    rw [h.ndof, Nat.mul_comm n, Nat.mul_add_div (by omega), Nat.div_eq_of_lt hi, Nat.mul_add_mod,
      Nat.mod_eq_of_lt hi, ← h.ndof, show n + 0 = n from rfl,
      hb _ _ (hM.mesh.node_lt hg (show n < M.npc from hn)) (by rw [h.ndof]; exact hi)]
    ring
  obtain ⟨B, hBd⟩ : ∃ B : Nat → ℝ, ∀ l, B l = cellS M u' (gcell (M.part k) c) l - cellS M u (gcell (M.part k) c) l :=
    ⟨_, fun _ => rfl⟩
  have hB' : ∀ n i, n < (P k).d + 1 → i < (P k).d + 1 → B (n * ((P k).d + 1) + i) = b i := fun n i hn hi => by
    rw [hBd, hB n i hn hi]
  have e : cellS M u' (gcell (M.part k) c) = fun l => 1 * cellS M u (gcell (M.part k) c) l + 1 * B l := by
    funext l
    rw [hBd]
    ring
  have e1 : ∀ t, (P k).strainForm (cellS M u' (gcell (M.part k) c)) (M.cellX x (gcell (M.part k) c)) t =
      (P k).strainForm (cellS M u (gcell (M.part k) c)) (M.cellX x (gcell (M.part k) c)) t := by
    intro t
    rw [e, strain_lin, strain_const (U := B) hd hdt (b := b) fun n i hn hi => hB' n i hn (by omega)]
    ring
  have e2 : ∀ t, t < (P k).d → (P k).fieldForm (cellS M u' (gcell (M.part k) c)) (M.cellX x (gcell (M.part k) c)) t =
      (P k).fieldForm (cellS M u (gcell (M.part k) c)) (M.cellX x (gcell (M.part k) c)) t := by
    intro t ht
    rw [e, field_lin, field_const (U := B) hd hdt (a := b (P k).d) (fun n hn => hB' n _ hn (by omega)) ht]
    ring
  unfold emStressLength EmLaw.stressOf
  congr 1
  refine sum_congr rfl fun t _ => ?_
  have e3 : ∀ j ∈ range (P k).d, (P k).law.alpha * (P k).fieldForm (cellS M u' (gcell (M.part k) c))
      (M.cellX x (gcell (M.part k) c)) j * (P k).law.piezo j t = (P k).law.alpha *
      (P k).fieldForm (cellS M u (gcell (M.part k) c)) (M.cellX x (gcell (M.part k) c)) j * (P k).law.piezo j t :=
    fun j hj => by rw [e2 j (mem_range.1 hj)]
  rw [funext e1, sum_congr rfl e3]

/-- **C115, translations and ground**: the criterion does not change when in every state a translation is added to the
displacements and a constant to the potentials. -/
theorem C115_ground (hdet : ∀ c, c < M.nc → detForm M.dim (M.cellX x c) ≠ 0) (exponent dt : ℝ)
    (order : Nat → List Nat) {S' : List (List ℝ)} (hS' : ∀ u ∈ S', u.length = M.nn * M.ndof)
    (hlen : S'.length = S.length)
    (hb : ∀ t, t < S.length → ∃ b : Nat → ℝ, ∀ n i, n < M.nn → i < M.ndof →
      at0 (S'[t]?.getD []) (M.ndof * n + i) = at0 (S[t]?.getD []) (M.ndof * n + i) + b i) :
    physicsValue M (plainNorm exponent P eR) (normPost exponent order) sv S' z x dt =
      physicsValue M (plainNorm exponent P eR) (normPost exponent order) sv S z x dt := by
  rw [C115_value hM h heR hS' hz hx (by rw [hlen]; exact hsv) exponent dt order,
    C115_value hM h heR hS hz hx hsv exponent dt order]
  suffices e : emNormSum M P (toOrdinal exponent) S' z x = emNormSum M P (toOrdinal exponent) S z x by rw [e]
  unfold emNormSum
  rw [hlen]
  refine sum_congr rfl fun k hk => sum_congr rfl fun t ht => sum_congr rfl fun c hc => ?_
  obtain ⟨b, hb⟩ := hb t (mem_range.1 ht)
  rw [emStressLength_ground hM h hdet hb (mem_range.1 hk) (mem_range.1 hc)]

/-- **C115, value of the weighted norm**: the length is multiplied by the root of the weight and divided by the
reference. -/
theorem C115_weighted_value {spw : ℝ} (hs : 0 ≤ spw) (ref exponent dt : ℝ) (order : Nat → List Nat) :
    physicsValue M (weightNorm exponent spw ref P eR) (normPost exponent order) sv S z x dt =
      .ok ((∑ k ∈ range M.domains.length, ∑ t ∈ range S.length, ∑ c ∈ range (M.size (M.part k)),
        (Real.sqrt spw * emStressLength M P (S[t]?.getD []) z x k (gcell (M.part k) c) / ref) ^
          (toOrdinal exponent : ℝ) * (P k).volForm abs (M.cellX x (gcell (M.part k) c))) ^ (1 / exponent)) := by
  rw [value_of_form hM (emNorm_computes h.dim h.ndof h.d
    (form := fun k => weightedForm (fun a q => a ^ q) Real.sqrt spw ref (numVoigt (P k).d) (toOrdinal exponent))
    (fun k => weightedNorm_form _ _ _ _ _ _) (by
      intro k σ σ' v hσ
      unfold weightedForm
      rw [sum_congr rfl fun t ht => by rw [hσ t (mem_range.1 ht)]]) heR dt)
    (emNorm_local h.dim h.ndof h.d) hS hz hx hsv]
  congr 1
  show _ ^ (1 / exponent) = _
  congr 1
  refine sum_congr rfl fun k _ => sum_congr rfl fun t _ => sum_congr rfl fun c _ => ?_
  unfold weightedForm emStressLength Em.stressForm Em.solidStress
  rw [← Real.sqrt_mul hs]
  congr 5
  exact sum_congr rfl fun _ _ => by ring

end Value

/-! ## Derivatives -/

/-- What the norm needs from a cell. -/
def emGoodNorm (M : FeModel) (P : Nat → Em ℝ) (penF : Nat → Fad → Fad) (p : Int) (U Z : Nat → ℝ) (X : Nat → Nat → ℝ) :
    Prop :=
  emGood M P penF Z X ∧ ∀ k, k < M.domains.length →
    (∃ t, t < numVoigt (P k).d ∧ (P k).stressForm U Z X t ≠ 0) ∨ 2 ≤ p

/-- What the weighted norm needs from a cell. -/
def emGoodWeighted (M : FeModel) (P : Nat → Em ℝ) (penF : Nat → Fad → Fad) (spw : ℝ) (U Z : Nat → ℝ)
    (X : Nat → Nat → ℝ) : Prop :=
  emGood M P penF Z X ∧ ∀ k, k < M.domains.length →
    ∃ t, t < numVoigt (P k).d ∧ (P k).stressForm U Z X t ≠ 0 ∧ 0 < spw

section Derivatives
variable {M : FeModel} {P : Nat → Em ℝ} (h : EmOk M P) {penF : Nat → Fad → Fad}
include h

theorem emGoodNorm_local (p : Int) : CritLocal M (emGoodNorm M P penF p) := by
  intro U U' Z Z' X X' hU hZ hX hg
  refine ⟨emGood_local h Z Z' X X' hZ hX hg.1, fun k hk => ?_⟩
  have hdk := h.d k hk
  have hnp : M.npc = (P k).d + 1 := by rw [FeModel.npc, hdk]
  have hnd : M.npc * M.ndof = ((P k).d + 1) * ((P k).d + 1) := by rw [h.ndof, hnp, hdk]
  have e : ∀ t, (P k).stressForm U Z X t = (P k).stressForm U' Z' X' t := fun t =>
    emStress_congr (by rw [hdk]; exact h.dim) (fun l hl => hU l (by omega)) (fun n hn => hZ n (by omega))
      (fun a i ha hi => hX a i (by omega) (by omega)) t
  have := hg.2 k hk
  simp only [e] at this
  exact this

theorem emNorm_tracks {E : Type} [NormedAddCommGroup E] [NormedSpace ℝ E] {exponent : ℝ} {eR eF : Nat → Nat → List Nat}
    (heR : ∀ k j, IsSchedule (eR k j) (M.size (M.part k))) (heF : ∀ k j, IsSchedule (eF k j) (M.size (M.part k)))
    (dt : ℝ) (x : E) :
    CritTracks M (plainNorm exponent P eR) (plainNormF exponent P penF eF) (emGoodNorm M P penF (toOrdinal exponent))
      dt x := by
  refine critTracks_of_form (emNorm_computes h.dim h.ndof h.d
      (form := fun k => tensorForm (fun a q => a ^ q) (numVoigt (P k).d) (toOrdinal exponent))
      (fun k => tensorPNorm_form _ _ _) ?_ heR dt)
    (emNorm_computes (P := fun k => (P k).lift (penF k)) h.dim h.ndof h.d
      (form := fun k => tensorForm Fad.rpow (numVoigt (P k).d) (toOrdinal exponent))
      (fun k => tensorPNorm_form _ _ _) ?_ heF dt) ?_
  · intro k σ σ' v hσ
    unfold tensorForm
    rw [sum_congr rfl fun t ht => by rw [hσ t (mem_range.1 ht)]]
  · intro k σ σ' v hσ
    have hσ : ∀ t, t < numVoigt (P k).d → σ t = σ' t := hσ
    unfold tensorForm
    rw [sum_congr rfl fun t ht => by rw [hσ t (mem_range.1 ht)]]
  · intro k N L UF ZF XF UR ZR XR hk hU hZ hX hg
    have hdk := h.d k hk
    have hnp : M.npc = (P k).d + 1 := by rw [FeModel.npc, hdk]
    have hnd : M.npc * M.ndof = ((P k).d + 1) * ((P k).d + 1) := by rw [h.ndof, hnp, hdk]
    have h3 : (P k).d = 1 ∨ (P k).d = 2 ∨ (P k).d = 3 := by rw [hdk]; exact h.dim
    have hX' : ∀ n i, n < (P k).d + 1 → i < (P k).d → Tracks L N x (XF n i) fun y => XR y n i :=
      fun a i ha hi => hX a i (by omega) (by omega)
    have hdet : detForm (P k).d (XR x) ≠ 0 := by rw [hdk]; exact hg.1.1
    exact tensor_tracks (numVoigt (P k).d) (toOrdinal exponent)
      (fun t _ => emStress_tracks h3 (fun n hn => hU n (by omega)) (fun n hn => hZ n (by omega)) hX' hdet
        (by rw [hdk]; exact hg.1.2 k hk) t)
      (emVol_tracks h3 hX' hdet) (hg.2 k hk)

theorem emGoodWeighted_local (spw : ℝ) : CritLocal M (emGoodWeighted M P penF spw) := by
  intro U U' Z Z' X X' hU hZ hX hg
  refine ⟨emGood_local h Z Z' X X' hZ hX hg.1, fun k hk => ?_⟩
  have hdk := h.d k hk
  have hnp : M.npc = (P k).d + 1 := by rw [FeModel.npc, hdk]
  have hnd : M.npc * M.ndof = ((P k).d + 1) * ((P k).d + 1) := by rw [h.ndof, hnp, hdk]
  have e : ∀ t, (P k).stressForm U Z X t = (P k).stressForm U' Z' X' t := fun t =>
    emStress_congr (by rw [hdk]; exact h.dim) (fun l hl => hU l (by omega)) (fun n hn => hZ n (by omega))
      (fun a i ha hi => hX a i (by omega) (by omega)) t
  have := hg.2 k hk
  simp only [e] at this
  exact this

theorem emWeighted_tracks {E : Type} [NormedAddCommGroup E] [NormedSpace ℝ E] {exponent spw ref : ℝ} (hr : ref ≠ 0)
    {eR eF : Nat → Nat → List Nat} (heR : ∀ k j, IsSchedule (eR k j) (M.size (M.part k)))
    (heF : ∀ k j, IsSchedule (eF k j) (M.size (M.part k))) (dt : ℝ) (x : E) :
    CritTracks M (weightNorm exponent spw ref P eR) (weightNormF exponent spw ref P penF eF)
      (emGoodWeighted M P penF spw) dt x := by
  refine critTracks_of_form (emNorm_computes h.dim h.ndof h.d
      (form := fun k => weightedForm (fun a q => a ^ q) Real.sqrt spw ref (numVoigt (P k).d) (toOrdinal exponent))
      (fun k => weightedNorm_form _ _ _ _ _ _) ?_ heR dt)
    (emNorm_computes (P := fun k => (P k).lift (penF k)) h.dim h.ndof h.d
      (form := fun k => weightedForm Fad.rpow sqrtFad (Fad.const spw) (Fad.const ref) (numVoigt (P k).d)
        (toOrdinal exponent))
      (fun k => weightedNorm_form _ _ _ _ _ _) ?_ heF dt) ?_
  · intro k σ σ' v hσ
    unfold weightedForm
    rw [sum_congr rfl fun t ht => by rw [hσ t (mem_range.1 ht)]]
  · intro k σ σ' v hσ
    have hσ : ∀ t, t < numVoigt (P k).d → σ t = σ' t := hσ
    unfold weightedForm
    rw [sum_congr rfl fun t ht => by rw [hσ t (mem_range.1 ht)]]
  · intro k N L UF ZF XF UR ZR XR hk hU hZ hX hg
    have hdk := h.d k hk
    have hnp : M.npc = (P k).d + 1 := by rw [FeModel.npc, hdk]
    have hnd : M.npc * M.ndof = ((P k).d + 1) * ((P k).d + 1) := by rw [h.ndof, hnp, hdk]
    have h3 : (P k).d = 1 ∨ (P k).d = 2 ∨ (P k).d = 3 := by rw [hdk]; exact h.dim
    have hX' : ∀ n i, n < (P k).d + 1 → i < (P k).d → Tracks L N x (XF n i) fun y => XR y n i :=
      fun a i ha hi => hX a i (by omega) (by omega)
    have hdet : detForm (P k).d (XR x) ≠ 0 := by rw [hdk]; exact hg.1.1
    exact weighted_tracks hr (numVoigt (P k).d) (toOrdinal exponent)
      (fun t _ => emStress_tracks h3 (fun n hn => hU n (by omega)) (fun n hn => hZ n (by omega)) hX' hdet
        (by rw [hdk]; exact hg.1.2 k hk) t)
      (emVol_tracks h3 hX' hdet) (hg.2 k hk)

variable (hM : M.Ok) {eR eX eU eZ : Nat → Nat → List Nat} (heR : ∀ k j, IsSchedule (eR k j) (M.size (M.part k)))
  (heX : ∀ k j, IsSchedule (eX k j) (M.size (M.part k))) (heU : ∀ k j, IsSchedule (eU k j) (M.size (M.part k)))
  (heZ : ∀ k j, IsSchedule (eZ k j) (M.size (M.part k))) {sv sx su sz : Sched} {wv : Nat}
  {z : Fin M.nn → ℝ} {x : Fin (M.nn * M.dim) → ℝ} {u : Fin (M.nn * M.ndof) → ℝ} {exponent : ℝ}
  (he : exponent ≠ 0) {order : Nat → List Nat} (ho : ∀ m, IsSchedule (order m) m)
  (hsv : sv.Ok M 1 wv) (hsx : sx.Ok M 1 (M.npc * M.dim)) (hsu : su.Ok M 1 (M.npc * M.ndof))
  (hsz : sz.Ok M 1 (M.npc * 1))
include hM heR heX heU heZ he ho hsv hsx hsu hsz

/-- **C115**: the criterion reports its derivatives with respect to state, control and coordinates, at one state,
wherever the sum is not zero and the stress is not zero in any cell or the exponent is at least two. -/
theorem C115_differentiates {dt : ℝ} (hgood : ∀ c, c < M.nc → emGoodNorm M P penF (toOrdinal exponent)
      (cellS M (List.ofFn u) c) (M.cellZ (List.ofFn z) c) (M.cellX (List.ofFn x) c))
    (hv0 : physicsValue M (plainNorm exponent P eR) Post.none sv [List.ofFn u] (List.ofFn z) (List.ofFn x) dt ≠ .ok 0) :
    Differentiates (physicsCriterion M (plainNorm exponent P eR) (plainNormF exponent P penF eX)
      (plainNormF exponent P penF eU) (plainNormF exponent P penF eZ) (normPost exponent order) sv sx su sz)
      (M.nn * M.dim) (M.nn * M.ndof) M.nn [List.ofFn u] z x 0 u dt := by
  refine C51_differentiates hM (emGoodNorm_local h _) rfl (by simp) (emNorm_tracks h heR heX dt _)
    (emNorm_tracks h heR heU dt _) (emNorm_tracks h heR heZ dt _) ?_ hsv hsx hsu hsz (.inl rfl) ?_
  · intro u' hu' c hc
    rw [List.mem_singleton.1 hu']
    exact hgood c hc
  · intro m v hv _
    exact normPost_ok he (ho m) (by rintro rfl; exact hv0 hv)

/-- **C115 for the weighted norm**: derivatives, wherever the sum and the stress of no cell are zero. -/
theorem C115_weighted_differentiates {dt spw ref : ℝ} (hr : ref ≠ 0)
    (hgood : ∀ c, c < M.nc → emGoodWeighted M P penF spw
      (cellS M (List.ofFn u) c) (M.cellZ (List.ofFn z) c) (M.cellX (List.ofFn x) c))
    (hv0 : physicsValue M (weightNorm exponent spw ref P eR) Post.none sv [List.ofFn u] (List.ofFn z) (List.ofFn x) dt ≠
      .ok 0) :
    Differentiates (physicsCriterion M (weightNorm exponent spw ref P eR) (weightNormF exponent spw ref P penF eX)
      (weightNormF exponent spw ref P penF eU) (weightNormF exponent spw ref P penF eZ) (normPost exponent order)
      sv sx su sz) (M.nn * M.dim) (M.nn * M.ndof) M.nn [List.ofFn u] z x 0 u dt := by
  refine C51_differentiates hM (emGoodWeighted_local h _) rfl (by simp) (emWeighted_tracks h hr heR heX dt _)
    (emWeighted_tracks h hr heR heU dt _) (emWeighted_tracks h hr heR heZ dt _) ?_ hsv hsx hsu hsz (.inl rfl) ?_
  · intro u' hu' c hc
    rw [List.mem_singleton.1 hu']
    exact hgood c hc
  · intro m v hv _
    exact normPost_ok he (ho m) (by rintro rfl; exact hv0 hv)

end Derivatives

/-! ## A case -/

/-- Stretch and potential of one in the first direction of the square: one unit of stress from the strain and one from
the coupling. -/
theorem slab_length (c k : Nat) (hc : c < 2) :
    emStressLength slab (fun _ => slabEm (fun i t => if i = 0 ∧ t = 0 then 1 else 0) 1 [])
      [0, 0, 0, 1, 0, 1, 0, 0, 0, 1, 0, 1] [1, 1, 1, 1] slabX k c = 2 := by
  have hm : meanDensity 3 (slab.cellZ [(1 : ℝ), 1, 1, 1] c) = 1 := by
    interval_cases c <;>
      norm_num [meanDensity, slab, FeModel.cellZ, cellNode, sum_range_succ, at0, atN, FeModel.npc]
  have hU : ∀ n i, n < 3 → i < 3 → cellS slab [0, 0, 0, 1, 0, 1, 0, 0, 0, 1, 0, 1] c (n * 3 + i) =
      if i = 1 then 0 else slab.cellX slabX c n 0 := by
    intro n i hn hi
    interval_cases c <;> interval_cases n <;> interval_cases i <;>
      norm_num [cellS, cellDof, slab, cellNode, FeModel.npc, FeModel.cellX, slabX, at0, atN]
  have e1 : ∀ t, t < 3 → (slabEm (fun i t => if i = 0 ∧ t = 0 then 1 else 0) 1 []).strainForm
      (cellS slab [0, 0, 0, 1, 0, 1, 0, 0, 0, 1, 0, 1] c) (slab.cellX slabX c) t = if t = 0 then 1 else 0 := by
    intro t ht
    rw [strain_affine (.inr (.inl rfl)) (slab_det hc) (b := fun _ => 0)
      (A := fun i j => if i = 0 ∧ j = 0 then 1 else 0)]
    · interval_cases t <;> simp [voigtPair, slabEm]
    · intro n i hn hi
      have hn : n < 3 := hn
      have hi : i < 2 := hi
      show cellS slab _ c (n * 3 + i) = _ + ∑ j ∈ range 2, _
      rw [hU n i hn (by omega)]
      interval_cases i <;> simp [sum_range_succ]
  have e2 : ∀ j, j < 2 → (slabEm (fun i t => if i = 0 ∧ t = 0 then 1 else 0) 1 []).fieldForm
      (cellS slab [0, 0, 0, 1, 0, 1, 0, 0, 0, 1, 0, 1] c) (slab.cellX slabX c) j = if j = 0 then -1 else 0 := by
    intro j hj
    rw [field_affine (.inr (.inl rfl)) (slab_det hc) (a := 0) (b := fun j => if j = 0 then 1 else 0) _ hj]
    · split_ifs <;> simp
    · intro n hn
      have hn : n < 3 := hn
      show cellS slab _ c (n * 3 + 2) = _ + ∑ j ∈ range 2, _
      rw [hU n 2 hn (by omega)]
      simp [sum_range_succ]
  unfold emStressLength EmLaw.stressOf
  have hp : (slabEm (fun i t => if i = 0 ∧ t = 0 then 1 else 0) 1 []).pen (meanDensity 3 (slab.cellZ [(1 : ℝ), 1, 1, 1] c)) =
      1 := hm
  show Real.sqrt (∑ t ∈ range 3, ((slabEm _ 1 []).pen (meanDensity 3 _) *
    (∑ s ∈ range 3, _ - ∑ j ∈ range 2, _)) ^ 2) = 2
  simp only [hp, sum_range_succ, sum_range_zero, e1 0 (by omega), e1 1 (by omega), e1 2 (by omega), e2 0 (by omega),
    e2 1 (by omega)]
  norm_num [slabEm, exLaw]
  rw [show (4 : ℝ) = 2 ^ 2 by norm_num]
  exact Real.sqrt_sq (by norm_num)

theorem slab_volume (e : Nat → Nat → ℝ) (c : Nat) (hc : c < 2) :
    (slabEm e 1 []).volForm abs (slab.cellX slabX c) = 1 / 2 := by
  have : |detForm 2 (slab.cellX slabX c)| = 1 := by
    interval_cases c <;>
      norm_num [detForm, edge, FeModel.cellX, slab, slabX, cellNode, FeModel.npc, at0, atN]
  show |detForm 2 (slab.cellX slabX c)| * (1 / 2) = 1 / 2
  rw [this]
  norm_num

/-- A case of C115: on the square the norm with exponent three is two. -/
example (order : Nat → List Nat) (dt : ℝ) :
    physicsValue slab (plainNorm ((3 : Int) : ℝ) (fun _ => slabEm (fun i t => if i = 0 ∧ t = 0 then 1 else 0) 1 [])
      fun k _ => List.range (slab.size (slab.part k))) (normPost ((3 : Int) : ℝ) order) (seqSch slab 9)
      [[0, 0, 0, 1, 0, 1, 0, 0, 0, 1, 0, 1]] [1, 1, 1, 1] slabX dt = .ok 2 := by
  rw [C115_value slab_ok (slabEm_ok _ _) (fun _ _ => IsSchedule.range _) (by simp [slab]) rfl rfl
    (seqSch_ok slab _ 9)]
  have hp : toOrdinal ((3 : Int) : ℝ) = 3 := by unfold toOrdinal; split_ifs <;> simp
  have h8 : emNormSum slab (fun _ => slabEm (fun i t => if i = 0 ∧ t = 0 then 1 else 0) 1 []) 3
      [[0, 0, 0, 1, 0, 1, 0, 0, 0, 1, 0, 1]] [1, 1, 1, 1] slabX = 2 ^ (3 : ℝ) := by
    unfold emNormSum
    simp only [show slab.domains.length = 2 from rfl, List.length_singleton, sum_range_succ, sum_range_zero, zero_add,
      show slab.size (slab.part 0) = 1 from rfl, show slab.size (slab.part 1) = 1 from rfl,
      List.getElem?_cons_zero, Option.getD_some]
    rw [slab_length _ _ (by decide), slab_length _ _ (by decide), slab_volume _ _ (by decide),
      slab_volume _ _ (by decide)]
    norm_num
  rw [hp, h8, ← Real.rpow_mul (by norm_num)]
  norm_num

/-- The hypotheses of `C115_differentiates` and `C115_ground`. -/
example : (∀ c, c < slab.nc → emGoodNorm slab (fun _ => slabEm (fun i t => i + t) 2 []) (fun _ => id)
      (toOrdinal ((2 : Int) : ℝ)) (cellS slab [0, 0, 0, 1, 0, 1, 0, 0, 0, 1, 0, 1] c) (slab.cellZ [1, 1, 1, 1] c)
      (slab.cellX slabX c)) ∧
    ∀ c, c < slab.nc → detForm slab.dim (slab.cellX slabX c) ≠ 0 :=
  ⟨fun _ hc => ⟨⟨slab_det hc, fun _ _ => penOk_id _⟩, fun _ _ => .inr (by unfold toOrdinal; norm_num)⟩,
    fun _ hc => slab_det hc⟩

/-- The hypotheses of `C115_weighted_differentiates`. -/
example : ∀ c, c < slab.nc → emGoodWeighted slab (fun _ => slabEm (fun i t => if i = 0 ∧ t = 0 then 1 else 0) 1 [])
    (fun _ => id) 3 (cellS slab [0, 0, 0, 1, 0, 1, 0, 0, 0, 1, 0, 1] c) (slab.cellZ [1, 1, 1, 1] c)
    (slab.cellX slabX c) := by
  intro c hc
  refine ⟨⟨slab_det hc, fun _ _ => penOk_id _⟩, fun k _ => ?_⟩
  by_contra hno
  have h0 : ∀ t, t < 3 → (slabEm (fun i t => if i = 0 ∧ t = 0 then 1 else 0) 1 []).stressForm
      (cellS slab [0, 0, 0, 1, 0, 1, 0, 0, 0, 1, 0, 1] c) (slab.cellZ [1, 1, 1, 1] c) (slab.cellX slabX c) t = 0 :=
    fun t ht => by
      by_contra hne
      exact hno ⟨t, ht, hne, by norm_num⟩
  have h2 := slab_length c k hc
  have e : emStressLength slab (fun _ => slabEm (fun i t => if i = 0 ∧ t = 0 then 1 else 0) 1 [])
      [0, 0, 0, 1, 0, 1, 0, 0, 0, 1, 0, 1] [1, 1, 1, 1] slabX k c = Real.sqrt (∑ t ∈ range 3,
      ((slabEm (fun i t => if i = 0 ∧ t = 0 then 1 else 0) 1 []).stressForm
        (cellS slab [0, 0, 0, 1, 0, 1, 0, 0, 0, 1, 0, 1] c) (slab.cellZ [1, 1, 1, 1] c) (slab.cellX slabX c) t) ^ 2) := by
    unfold emStressLength Em.stressForm Em.solidStress
    congr 1
    exact sum_congr rfl fun _ _ => by ring
  rw [e, sum_congr rfl fun t ht => by rw [h0 t (mem_range.1 ht)]] at h2
  norm_num at h2

end Plato.Em
