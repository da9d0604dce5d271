import Verif.Em.Element
import Verif.Tm.Track
import Verif.Crit.Elastic

/-!
# Electromechanics as vector function and as criterion

The residual adds one row to every cell, the energy one number, and what is computed with automatic
differentiation values tracks what is computed with numbers.  From this the derivatives of C67 and C68.
-/

namespace Plato.Em
open Finset Plato Plato.Mech Plato.Thermal Plato.Dyn Plato.Crit
open Plato.Tm (fluxRow fluxRow_congr fluxRow_tracks)

/-- Material and residual instantiated with automatic differentiation values. -/
def EmLaw.lift (L : EmLaw ℝ) : EmLaw Fad :=
  ⟨fun i j => Fad.const (L.stiff i j), fun i j => Fad.const (L.piezo i j), fun i j => Fad.const (L.perm i j),
    Fad.const L.alpha⟩

def Em.lift (P : Em ℝ) (penF : Fad → Fad) : Em Fad :=
  ⟨P.d, Fad.const P.cubWeight, P.law.lift, penF, P.bodyLoads.map BodyLoad.lift, P.plottable⟩

/-- What residual and energy need from the problem. -/
structure EmOk (M : FeModel) (P : Nat → Em ℝ) : Prop where
  dim : M.dim = 1 ∨ M.dim = 2 ∨ M.dim = 3
  ndof : M.ndof = M.dim + 1
  d : ∀ k, k < M.domains.length → (P k).d = M.dim
  loads : ∀ k cells, M.part k = some cells → ∀ B ∈ (P k).bodyLoads, BodyLoad.Ok B M.dim (M.dim + 1) cells

/-- What they need from a cell: it is not degenerate, and the penalty functions follow the chain rule at
its density. -/
def emGood (M : FeModel) (P : Nat → Em ℝ) (penF : Nat → Fad → Fad) (Z : Nat → ℝ)
    (X : Nat → Nat → ℝ) : Prop :=
  detForm M.dim X ≠ 0 ∧ ∀ k, k < M.domains.length → PenOk (penF k) (P k).pen (meanDensity (M.dim + 1) Z)

theorem emGood_local {M : FeModel} {P : Nat → Em ℝ} {penF : Nat → Fad → Fad}
    (h : EmOk M P) : GoodLocal M (emGood M P penF) := by
  intro Z Z' X X' hZ hX hg
  refine ⟨?_, ?_⟩
  · rw [← detForm_congr h.dim hX]
    exact hg.1
  · rw [← meanDensity_congr (npc := M.dim + 1) hZ]
    exact hg.2

section Congr
variable {R : Type} [CommRing R] [Div R] {fabs : R → R} {P : Em R} {U U' Z Z' : Nat → R}
  {X X' : Nat → Nat → R} (hd : P.d = 1 ∨ P.d = 2 ∨ P.d = 3)
  (hU : ∀ l, l < (P.d + 1) * (P.d + 1) → U l = U' l) (hZ : ∀ n, n < P.d + 1 → Z n = Z' n)
  (hX : ∀ a k, a < P.d + 1 → k < P.d → X a k = X' a k)

include hd hX in
theorem emVol_congr : P.volForm fabs X = P.volForm fabs X' := by
  unfold Em.volForm
  rw [detForm_congr hd hX]

include hd hU hX in
theorem emStrain_congr (t : Nat) : P.strainForm U X t = P.strainForm U' X' t :=
  voigtStrain_congr hd (fun n i hn hi => hU _ (dof_lt hn (hi.trans (Nat.lt_succ_self _))))
    fun n j _ hj => gradForm_congr hd hX hj

include hd hU hX in
theorem emField_congr {k : Nat} (hk : k < P.d) : P.fieldForm U X k = P.fieldForm U' X' k :=
  congrArg _ (scalarField_congr (fun n hn => hU _ (dof_lt hn (Nat.lt_succ_self _))) fun n _ => gradForm_congr hd hX hk)

include hd hU hZ hX in
theorem emStress_congr (t : Nat) : P.stressForm U Z X t = P.stressForm U' Z' X' t := by
  unfold Em.stressForm Em.solidStress EmLaw.stressOf
  rw [meanDensity_congr hZ]
  simp only [emStrain_congr hd hU hX]
  congr 2
  exact sum_congr rfl fun j hj => by rw [emField_congr hd hU hX (mem_range.1 hj)]

include hd hU hZ hX in
theorem emDisp_congr (k : Nat) : P.dispForm U Z X k = P.dispForm U' Z' X' k := by
  unfold Em.dispForm Em.solidDisp EmLaw.dispOf
  rw [meanDensity_congr hZ]
  simp only [emStrain_congr hd hU hX]
  congr 2
  exact sum_congr rfl fun j hj => by rw [emField_congr hd hU hX (mem_range.1 hj)]

include hd hU hZ hX in
theorem solidRow_congr : P.solidRow fabs U Z X = P.solidRow fabs U' Z' X' := by
  have hG : ∀ n j, j < P.d → gradForm P.d X n j = gradForm P.d X' n j := fun n j hj => gradForm_congr hd hX hj
  have h1 : ∀ v : R, stressRow P.d (P.d + 1) v (P.stressForm U Z X) (gradForm P.d X) =
      stressRow P.d (P.d + 1) v (P.stressForm U' Z' X') (gradForm P.d X') := fun v =>
    stressRow_congr hd (fun t _ => emStress_congr hd hU hZ hX t) hG
  have h2 : ∀ v : R, fluxRow P.d (P.d + 1) P.d v (P.dispForm U Z X) (gradForm P.d X) =
      fluxRow P.d (P.d + 1) P.d v (P.dispForm U' Z' X') (gradForm P.d X') := fun v =>
    fluxRow_congr (fun k _ => emDisp_congr hd hU hZ hX k) hG
  unfold Em.solidRow
  rw [emVol_congr hd hX, h1, h2]

include hd hU hZ hX in
theorem emEnergy_congr : P.energyForm fabs U Z X = P.energyForm fabs U' Z' X' := by
  unfold Em.energyForm
  rw [emVol_congr hd hX]
  simp only [emStress_congr hd hU hZ hX, emDisp_congr hd hU hZ hX, emStrain_congr hd hU hX]
  congr 2
  congr 1
  exact sum_congr rfl fun k hk => by rw [emField_congr hd hU hX (mem_range.1 hk)]

include hZ in
theorem emLoadRow_congr {c gc : ℕ} : P.loadRow c gc Z = P.loadRow c gc Z' := by
  unfold Em.loadRow BodyLoad.row
  rw [meanDensity_congr hZ]

end Congr

section Row
variable {R : Type} [CommRing R] [Div R] {fabs : R → R} {M : FeModel} {P : Nat → Em R}
  (hdim : M.dim = 1 ∨ M.dim = 2 ∨ M.dim = 3) (hndof : M.ndof = M.dim + 1)
  (hd : ∀ k, k < M.domains.length → (P k).d = M.dim)
include hdim hndof hd

theorem electroelastic_row
    (hL : ∀ k cells, M.part k = some cells → ∀ B ∈ (P k).bodyLoads, BodyLoad.Ok B M.dim (M.dim + 1) cells)
    {init : Nat → Nat → Nat → Nat} {sch : Nat → Nat → List Nat}
    (hs : ∀ k j, IsSchedule (sch k j) (M.size (M.part k))) :
    RowEv M (electroelastic fabs M P init sch) fun k c S Z X =>
      (P k).staticRow fabs c (gcell (M.part k) c) S Z X := by
  refine ⟨?_, ?_, ?_⟩
  · intro k cells s z x r hp hP hr0 hr1
    have hk := part_lt hp
    have hdk := hd k hk
    have hsz : M.size (M.part k) = cells.length := by rw [hp]; rfl
    have hnp : M.npc = (P k).d + 1 := by rw [FeModel.npc, hdk]
    have hnd : M.npc * M.ndof = ((P k).d + 1) * ((P k).d + 1) := by rw [hndof, hnp, hdk]
    obtain ⟨w, hw, -⟩ := static_ok fabs (P := P k) (cells := cells) (state := s)
      (control := z) (config := x) (by rw [hdk]; exact hdim)
      ⟨(hP.s0.trans hsz).ge, (hP.s1.trans hnd).ge, (hP.z0.trans hsz).ge, (hP.z1.trans hnp).ge,
        (hP.x0.trans hsz).ge, hP.x1.trans hnp, by rw [hP.x2, hdk]⟩
      (by rw [hdk]; exact hL k cells hp) (sched := sch k) (fun j => hsz ▸ hs k j) (init k) (result := r)
      (hr0.trans hsz).ge (hr1.trans hnd).ge
    unfold electroelastic
    rw [hp]
    dsimp only
    rw [hw, Res.ok_bind]
    rfl
  · intro k s z x r hp
    unfold electroelastic
    rw [hp]
  · intro k c S S' Z Z' X X' hk hS hZ hX l _
    have hdk := hd k hk
    have hnp : M.npc = (P k).d + 1 := by rw [FeModel.npc, hdk]
    have hnd : M.npc * M.ndof = ((P k).d + 1) * ((P k).d + 1) := by rw [hndof, hnp, hdk]
    have hZ' : ∀ n, n < (P k).d + 1 → Z n = Z' n := fun n hn => hZ n (by omega)
    have hr : (P k).solidRow fabs S Z X = (P k).solidRow fabs S' Z' X' :=
      solidRow_congr (by rw [hdk]; exact hdim) (fun l hl => hS l (by omega)) hZ'
        fun a i ha hi => hX a i (by omega) (by omega)
    unfold Em.staticRow
    rw [hr, emLoadRow_congr hZ']

theorem emEnergy_computes {sch : Nat → List Nat} (hs : ∀ k, IsSchedule (sch k) (M.size (M.part k))) (dt : ℝ) :
    Computes M (electroelasticEnergy fabs P sch) dt fun k U Z X => (P k).energyForm fabs U Z X := by
  intro k s z x hk hp
  have hdk := hd k hk
  have hnp : M.npc = (P k).d + 1 := by rw [FeModel.npc, hdk]
  have hnd : M.npc * M.ndof = ((P k).d + 1) * ((P k).d + 1) := by rw [hndof, hnp, hdk]
  obtain ⟨w, r, e, -, hl, hq⟩ := energy_ok fabs (P := P k) (nc := s.d0) (state := s) (control := z) (config := x)
    (by rw [hdk]; exact hdim)
    ⟨le_rfl, (hp.s1.trans hnd).ge, by rw [hp.s0, hp.z0], (hp.z1.trans hnp).ge, by rw [hp.s0, hp.x0],
      hp.x1.trans hnp, by rw [hp.x2, hdk]⟩
    (order := sch k) (by rw [hp.s0]; exact hs k) (result := List.replicate (M.size (M.part k)) 0)
    (by rw [List.length_replicate, hp.s0])
  unfold electroelasticEnergy
  rw [e, Res.ok_bind]
  refine Res.sat_ok.2 ⟨hl.trans hp.s0, fun c hc => ?_⟩
  rw [(hq c (by rw [hp.s0]; exact hc)).1, at0_replicate, zero_add]

theorem emEnergy_local : FormLocal M fun k U Z X => (P k).energyForm fabs U Z X := by
  intro k U U' Z Z' X X' hk hU hZ hX
  have hdk := hd k hk
  have hnp : M.npc = (P k).d + 1 := by rw [FeModel.npc, hdk]
  have hnd : M.npc * M.ndof = ((P k).d + 1) * ((P k).d + 1) := by rw [hndof, hnp, hdk]
  exact emEnergy_congr (by rw [hdk]; exact hdim) (fun l hl => hU l (by omega)) (fun n hn => hZ n (by omega))
    fun a i ha hi => hX a i (by omega) (by omega)

end Row

section
variable {E : Type} [NormedAddCommGroup E] [NormedSpace ℝ E] {L : ℕ → E →L[ℝ] ℝ} {N : ℕ} {x : E}
  {P : Em ℝ} {penF : Fad → Fad} {UF ZF : ℕ → Fad} {XF : ℕ → ℕ → Fad} {UR ZR : E → ℕ → ℝ}
  {XR : E → ℕ → ℕ → ℝ} (hd : P.d = 1 ∨ P.d = 2 ∨ P.d = 3)
  (hU : ∀ l, l < (P.d + 1) * (P.d + 1) → Tracks L N x (UF l) fun y => UR y l)
  (hZ : ∀ n, n < P.d + 1 → Tracks L N x (ZF n) fun y => ZR y n)
  (hX : ∀ n k, n < P.d + 1 → k < P.d → Tracks L N x (XF n k) fun y => XR y n k)
  (hdet : detForm P.d (XR x) ≠ 0) (hpen : PenOk penF P.pen (meanDensity (P.d + 1) (ZR x)))

include hd hX hdet in
theorem emVol_tracks : Tracks L N x ((P.lift penF).volForm Fad.fabs XF) fun y => P.volForm abs (XR y) :=
  ((detForm_tracks hd hX).fabs hdet).mul (Tracks.const _)

include hd hU hX hdet in
theorem emStrain_tracks (t : Nat) :
    Tracks L N x ((P.lift penF).strainForm UF XF t) fun y => P.strainForm (UR y) (XR y) t :=
  voigtStrain_tracks (d := P.d) hd (fun n i hn hi => hU _ (dof_lt hn (hi.trans (Nat.lt_succ_self _))))
      fun n j _ hj => gradForm_tracks hd hX hdet hj

include hd hU hX hdet in
theorem emField_tracks {k : Nat} (hk : k < P.d) :
    Tracks L N x ((P.lift penF).fieldForm UF XF k) fun y => P.fieldForm (UR y) (XR y) k :=
  Tracks.neg (Tracks.sum _ fun n hn => (hU _ (dof_lt (mem_range.1 hn) (Nat.lt_succ_self _))).mul
    (gradForm_tracks hd hX hdet hk))

include hd hU hZ hX hdet hpen in
theorem emStress_tracks (t : Nat) :
    Tracks L N x ((P.lift penF).stressForm UF ZF XF t) fun y => P.stressForm (UR y) (ZR y) (XR y) t := by
  refine Tracks.mul (Tracks.sub (Tracks.sum _ fun s _ => ?_) (Tracks.sum _ fun j hj => ?_))
    (hpen.tracks (meanDensity_tracks (Nat.succ_ne_zero _) hZ))
  · exact (emStrain_tracks hd hU hX hdet s).mul (Tracks.const _)
  · exact ((Tracks.const _).mul (emField_tracks hd hU hX hdet (mem_range.1 hj))).mul (Tracks.const _)

include hd hU hZ hX hdet hpen in
theorem emDisp_tracks (k : Nat) :
    Tracks L N x ((P.lift penF).dispForm UF ZF XF k) fun y => P.dispForm (UR y) (ZR y) (XR y) k := by
  refine Tracks.mul (Tracks.add (Tracks.sum _ fun j hj => ?_) (Tracks.sum _ fun s _ => ?_))
    (hpen.tracks (meanDensity_tracks (Nat.succ_ne_zero _) hZ))
  · exact (((Tracks.const _).mul (Tracks.const _)).mul (emField_tracks hd hU hX hdet (mem_range.1 hj))).mul (Tracks.const _)
  · exact ((Tracks.const _).mul (emStrain_tracks hd hU hX hdet s)).mul (Tracks.const _)

include hd hU hZ hX hdet hpen in
theorem emSolidRow_tracks (r : Nat) : Tracks L N x ((P.lift penF).solidRow Fad.fabs UF ZF XF r)
    fun y => P.solidRow abs (UR y) (ZR y) (XR y) r :=
  ((stressRow_tracks hd (emVol_tracks hd hX hdet) (fun t _ => emStress_tracks hd hU hZ hX hdet hpen t)
      fun n j hj => gradForm_tracks hd hX hdet hj) r).add
    ((fluxRow_tracks (emVol_tracks hd hX hdet) (fun k _ => emDisp_tracks hd hU hZ hX hdet hpen k)
      fun n j hj => gradForm_tracks hd hX hdet hj) r)

include hd hU hZ hX hdet hpen in
theorem emEnergy_tracks : Tracks L N x ((P.lift penF).energyForm Fad.fabs UF ZF XF)
    fun y => P.energyForm abs (UR y) (ZR y) (XR y) := by
  refine Tracks.add (Tracks.mul (Tracks.mul Tracks.one (Tracks.sum _ fun t _ => ?_)) (emVol_tracks hd hX hdet))
    (Tracks.mul (Tracks.mul (Tracks.neg Tracks.one) (Tracks.sum _ fun k hk => ?_)) (emVol_tracks hd hX hdet))
  · exact (emStress_tracks hd hU hZ hX hdet hpen t).mul (emStrain_tracks hd hU hX hdet t)
  · exact (emDisp_tracks hd hU hZ hX hdet hpen k).mul (emField_tracks hd hU hX hdet (mem_range.1 hk))

include hZ in
theorem emLoadRow_tracks (c gc r : ℕ) : Tracks L N x ((P.lift penF).loadRow c gc ZF r)
    fun y => P.loadRow c gc (ZR y) r := by
  unfold Em.loadRow Em.lift
  dsimp only
  induction P.bodyLoads with
  | nil => exact Tracks.zero
  | cons B Bs ih =>
    simp only [List.map_cons, List.sum_cons, Pi.add_apply] at ih ⊢
    exact (bodyLoad_tracks B hZ r).add ih

include hd hU hZ hX hdet hpen in
theorem emStaticRow_tracks (c gc r : ℕ) : Tracks L N x ((P.lift penF).staticRow Fad.fabs c gc UF ZF XF r)
    fun y => P.staticRow abs c gc (UR y) (ZR y) (XR y) r :=
  (emSolidRow_tracks hd hU hZ hX hdet hpen r).add (emLoadRow_tracks hZ c gc r)

end

section
variable {M : FeModel} {P : Nat → Em ℝ} {penF : Nat → Fad → Fad} (h : EmOk M P)
include h

theorem electroelastic_rowR {init : Nat → Nat → Nat → Nat} {sch : Nat → Nat → List Nat}
    (hs : ∀ k j, IsSchedule (sch k j) (M.size (M.part k))) :
    RowEv M (electroelastic abs M P init sch) fun k c S Z X =>
      (P k).staticRow abs c (gcell (M.part k) c) S Z X :=
  electroelastic_row h.dim h.ndof h.d h.loads hs

theorem electroelastic_rowF {init : Nat → Nat → Nat → Nat} {sch : Nat → Nat → List Nat}
    (hs : ∀ k j, IsSchedule (sch k j) (M.size (M.part k))) :
    RowEv M (electroelastic Fad.fabs M (fun k => (P k).lift (penF k)) init sch) fun k c S Z X =>
      ((P k).lift (penF k)).staticRow Fad.fabs c (gcell (M.part k) c) S Z X := by
  refine electroelastic_row (P := fun k => (P k).lift (penF k)) h.dim h.ndof h.d (fun k cells hp B hB => ?_) hs
  obtain ⟨B', hB', rfl⟩ := List.mem_map.1 hB
  exact lift_bodyLoad_ok (h.loads k cells hp B' hB')

theorem electroelastic_tracks {E : Type} [NormedAddCommGroup E] [NormedSpace ℝ E]
    {iR iF : Nat → Nat → Nat → Nat} {schR schF : Nat → Nat → List Nat}
    (hsR : ∀ k j, IsSchedule (schR k j) (M.size (M.part k)))
    (hsF : ∀ k j, IsSchedule (schF k j) (M.size (M.part k))) (x : E) :
    EvTracks M (fun _ => electroelastic abs M P iR schR)
      (electroelastic Fad.fabs M (fun k => (P k).lift (penF k)) iF schF) (emGood M P penF) x := by
  refine RowEv.tracks (electroelastic_rowR h hsR) (electroelastic_rowF h hsF) ?_
  intro k c N L SF ZF XF SR ZR XR hk _ hS hZ hX hg l _
  have hdk := h.d k hk
  have hnp : M.npc = (P k).d + 1 := by rw [FeModel.npc, hdk]
  have hnd : M.npc * M.ndof = ((P k).d + 1) * ((P k).d + 1) := by rw [h.ndof, hnp, hdk]
  exact emStaticRow_tracks (by rw [hdk]; exact h.dim) (fun n hn => hS n (by omega)) (fun n hn => hZ n (by omega))
    (fun a i ha hi => hX a i (by omega) (by omega)) (by rw [hdk]; exact hg.1) (by rw [hdk]; exact hg.2 k hk) _ _ l

theorem electroelasticEnergy_tracks {E : Type} [NormedAddCommGroup E] [NormedSpace ℝ E]
    {schR schF : Nat → List Nat} (hsR : ∀ k, IsSchedule (schR k) (M.size (M.part k)))
    (hsF : ∀ k, IsSchedule (schF k) (M.size (M.part k))) (dt : ℝ) (x : E) :
    CritTracks M (electroelasticEnergy abs P schR)
      (electroelasticEnergy Fad.fabs (fun k => (P k).lift (penF k)) schF) (fun _ Z X => emGood M P penF Z X) dt x := by
  refine critTracks_of_form (emEnergy_computes h.dim h.ndof h.d hsR dt)
    (emEnergy_computes (P := fun k => (P k).lift (penF k)) h.dim h.ndof h.d hsF dt) ?_
  intro k N L UF ZF XF UR ZR XR hk hU hZ hX hg
  have hdk := h.d k hk
  have hnp : M.npc = (P k).d + 1 := by rw [FeModel.npc, hdk]
  have hnd : M.npc * M.ndof = ((P k).d + 1) * ((P k).d + 1) := by rw [h.ndof, hnp, hdk]
  exact emEnergy_tracks (by rw [hdk]; exact h.dim) (fun n hn => hU n (by omega)) (fun n hn => hZ n (by omega))
    (fun a i ha hi => hX a i (by omega) (by omega)) (by rw [hdk]; exact hg.1) (by rw [hdk]; exact hg.2 k hk)

end

/-! ## Derivatives -/

section
variable {M : FeModel} {P : Nat → Em ℝ} {penF : Nat → Fad → Fad} (h : EmOk M P) (hM : M.Ok)
  {iR iF : Nat → Nat → Nat → Nat} {eR eF : Nat → Nat → List Nat}
  (heR : ∀ k j, IsSchedule (eR k j) (M.size (M.part k)))
  (heF : ∀ k j, IsSchedule (eF k j) (M.size (M.part k)))
  {o : List Nat} (ho : IsSchedule o M.nn) {sch : Nat → Nat → List Nat}
include h hM heR heF ho

/-- **C67**: the matrix is the derivative of the residual with respect to displacements and potentials. -/
theorem C67_gradient_u {u : Fin (M.nn * M.ndof) → ℝ} {z x : List ℝ} (hz : z.length = M.nn)
    (hx : x.length = M.nn * M.dim) (hgood : ∀ c, c < M.nc → emGood M P penF (M.cellZ z c) (M.cellX x c))
    (hs : SchedOk M sch (M.npc * M.ndof * (M.npc * M.ndof)))
    {schR : (Fin (M.nn * M.ndof) → ℝ) → Nat → Nat → List Nat}
    (hsR : ∀ y, SchedOk M (schR y) (M.npc * M.ndof)) :
    ∃ (v : (Fin (M.nn * M.ndof) → ℝ) → List ℝ) (J : Crs ℝ),
      (∀ y, M.value (electroelastic abs M P iR eR) (schR y) (List.ofFn y) z x = .ok (v y) ∧
        (v y).length = M.nn * M.ndof) ∧
      M.gradientU (electroelastic Fad.fabs M (fun k => (P k).lift (penF k)) iF eF) o sch (List.ofFn u) z x =
        .ok J ∧ J.WF M.nn M.nn ∧
      ∀ q, q < M.nn * M.ndof →
        HasFDerivAt (fun y => at0 (v y) q) (lin (M.nn * M.ndof) fun j => J.dense q j) u :=
  C43_gradient_u hM (emGood_local h) hz hx hgood (electroelastic_tracks h heR heF u) ho hs hsR

/-- **C67**: derivative with respect to the control. -/
theorem C67_gradient_z {z : Fin M.nn → ℝ} {u x : List ℝ} (hu : u.length = M.nn * M.ndof)
    (hx : x.length = M.nn * M.dim)
    (hgood : ∀ c, c < M.nc → emGood M P penF (M.cellZ (List.ofFn z) c) (M.cellX x c))
    (hs : SchedOk M sch (M.npc * M.ndof * (M.npc * 1)))
    {schR : (Fin M.nn → ℝ) → Nat → Nat → List Nat} (hsR : ∀ y, SchedOk M (schR y) (M.npc * M.ndof)) :
    ∃ (v : (Fin M.nn → ℝ) → List ℝ) (J : Crs ℝ),
      (∀ y, M.value (electroelastic abs M P iR eR) (schR y) u (List.ofFn y) x = .ok (v y) ∧
        (v y).length = M.nn * M.ndof) ∧
      M.gradientZ (electroelastic Fad.fabs M (fun k => (P k).lift (penF k)) iF eF) o sch u (List.ofFn z) x =
        .ok J ∧ J.WF M.nn M.nn ∧
      ∀ q, HasFDerivAt (fun y => at0 (v y) q) (lin M.nn fun j => J.dense j q) z :=
  C43_gradient_z hM (emGood_local h) hu hx hgood (electroelastic_tracks h heR heF z) ho hs hsR

/-- **C67**: derivative with respect to the node coordinates, with the integrands and Jacobian
determinants of the body loads held fixed (see C49). -/
theorem C67_gradient_x_partial {x : Fin (M.nn * M.dim) → ℝ} {u z : List ℝ} (hu : u.length = M.nn * M.ndof)
    (hz : z.length = M.nn)
    (hgood : ∀ c, c < M.nc → emGood M P penF (M.cellZ z c) (M.cellX (List.ofFn x) c))
    (hs : SchedOk M sch (M.npc * M.ndof * (M.npc * M.dim)))
    {schR : (Fin (M.nn * M.dim) → ℝ) → Nat → Nat → List Nat}
    (hsR : ∀ y, SchedOk M (schR y) (M.npc * M.ndof)) :
    ∃ (v : (Fin (M.nn * M.dim) → ℝ) → List ℝ) (J : Crs ℝ),
      (∀ y, M.value (electroelastic abs M P iR eR) (schR y) u z (List.ofFn y) = .ok (v y) ∧
        (v y).length = M.nn * M.ndof) ∧
      M.gradientX (electroelastic Fad.fabs M (fun k => (P k).lift (penF k)) iF eF) o sch u z (List.ofFn x) =
        .ok J ∧ J.WF M.nn M.nn ∧
      ∀ q, HasFDerivAt (fun y => at0 (v y) q) (lin (M.nn * M.dim) fun j => J.dense j q) x :=
  C43_gradient_x hM (emGood_local h) hu hz hgood (electroelastic_tracks h heR heF x) ho hs hsR

end

section
variable {M : FeModel} (hM : M.Ok) {P : Nat → Em ℝ} (h : EmOk M P) {penF : Nat → Fad → Fad}
  {eR eX eU eZ : Nat → List Nat} (heR : ∀ k, IsSchedule (eR k) (M.size (M.part k)))
  (heX : ∀ k, IsSchedule (eX k) (M.size (M.part k))) (heU : ∀ k, IsSchedule (eU k) (M.size (M.part k)))
  (heZ : ∀ k, IsSchedule (eZ k) (M.size (M.part k))) {sv sx su sz : Sched} {wv : Nat} {S : List (List ℝ)}
  {z : Fin M.nn → ℝ} {x : Fin (M.nn * M.dim) → ℝ} {u : Fin (M.nn * M.ndof) → ℝ} {j : Nat}
include hM h heR heX heU heZ

/-- **C68**: the energy reports its derivatives with respect to state, control and coordinates, for any number
of steps. -/
theorem C68_differentiates (dt : ℝ) (hj : S[j]? = some (List.ofFn u)) (hS : ∀ u ∈ S, u.length = M.nn * M.ndof)
    (hgood : ∀ c, c < M.nc → emGood M P penF (M.cellZ (List.ofFn z) c) (M.cellX (List.ofFn x) c))
    (hsv : sv.Ok M S.length wv) (hsx : sx.Ok M S.length (M.npc * M.dim)) (hsu : su.Ok M 1 (M.npc * M.ndof))
    (hsz : sz.Ok M S.length (M.npc * 1)) :
    Differentiates (physicsCriterion M (electroelasticEnergy abs P eR)
      (electroelasticEnergy Fad.fabs (fun k => (P k).lift (penF k)) eX)
      (electroelasticEnergy Fad.fabs (fun k => (P k).lift (penF k)) eU)
      (electroelasticEnergy Fad.fabs (fun k => (P k).lift (penF k)) eZ) Post.none sv sx su sz)
      (M.nn * M.dim) (M.nn * M.ndof) M.nn S z x j u dt :=
  C51_differentiates hM (fun _ _ Z Z' X X' _ hZ hX hg => emGood_local h Z Z' X X' hZ hX hg) hj hS
    (electroelasticEnergy_tracks h heR heX dt _) (electroelasticEnergy_tracks h heR heU dt _)
    (electroelasticEnergy_tracks h heR heZ dt _) (fun _ _ c hc => hgood c hc) hsv hsx hsu hsz (.inr rfl)
    fun m v _ _ => Post.none_ok m v

end

end Plato.Em
