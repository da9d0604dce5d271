import Verif.Tm.Element
import Verif.Dyn.Track
import Verif.Thermal.Heat

/-!
# Thermomechanics as vector function

The residuals add one row to every cell, and the rows computed with automatic differentiation values track
the rows computed with numbers.  From this the derivatives of C61 and C62.
-/

namespace Plato.Tm
open Finset Plato Plato.Mech Plato.Thermal Plato.Dyn

/-- Tensors, material and residual instantiated with automatic differentiation values. -/
def Table.lift (F : Table ℝ) : Table Fad :=
  ⟨F.n, fun i j => Fad.const (F.const i j), fun i j => Fad.const (F.c0 i j), fun i j => Fad.const (F.c1 i j),
    fun i j => Fad.const (F.c2 i j)⟩

def TmLaw.lift (L : TmLaw ℝ) : TmLaw Fad :=
  ⟨L.nonlinear, L.stiff.lift, L.expand.lift, L.cond.lift, Fad.const L.tref, Fad.const L.scale⟩

def Tm.lift (P : Tm ℝ) (penF : Fad → Fad) : Tm Fad :=
  ⟨P.d, Fad.const P.cubWeight, P.basis.map Fad.const, P.law.lift, P.mass.lift, penF,
    P.bodyLoads.map BodyLoad.lift, P.plottable⟩

/-- What the residuals need from the problem. -/
structure TmOk (M : FeModel) (P : Nat → Tm ℝ) : Prop where
  dim : M.dim = 2 ∨ M.dim = 3
  ndof : M.ndof = M.dim + 1
  d : ∀ k, k < M.domains.length → (P k).d = M.dim
  basis : ∀ k, k < M.domains.length → (P k).basis.length = M.dim + 1
  law : ∀ k, k < M.domains.length → (P k).law.Ok M.dim
  loads : ∀ k cells, M.part k = some cells → ∀ B ∈ (P k).bodyLoads, BodyLoad.Ok B M.dim (M.dim + 1) cells

/-- What they need from a cell: it is not degenerate, and the penalty functions follow the chain rule at
its density. -/
def tmGood (M : FeModel) (P : Nat → Tm ℝ) (penF : Nat → Fad → Fad) (Z : Nat → ℝ)
    (X : Nat → Nat → ℝ) : Prop :=
  detForm M.dim X ≠ 0 ∧ ∀ k, k < M.domains.length → PenOk (penF k) (P k).pen (meanDensity (M.dim + 1) Z)

theorem tmGood_local {M : FeModel} {P : Nat → Tm ℝ} {penF : Nat → Fad → Fad}
    (h : TmOk M P) : GoodLocal M (tmGood M P penF) := by
  intro Z Z' X X' hZ hX hg
  refine ⟨?_, ?_⟩
  · rw [← detForm_congr (.inr h.dim) hX]
    exact hg.1
  · rw [← meanDensity_congr (npc := M.dim + 1) hZ]
    exact hg.2

section Congr
variable {R : Type} [CommRing R] [Div R] {fabs : R → R} {P : Tm R} {U U' V V' Z Z' : Nat → R}
  {X X' : Nat → Nat → R}

omit [Div R] in
theorem fluxRow_congr {d ndof off : Nat} {v : R} {q q' : Nat → R} {G G' : Nat → Nat → R}
    (hq : ∀ k, k < d → q k = q' k) (hG : ∀ n j, j < d → G n j = G' n j) :
    fluxRow d ndof off v q G = fluxRow d ndof off v q' G' := by
  unfold fluxRow
  refine sum_congr rfl fun n _ => ?_
  have : ∑ k ∈ range d, q k * G n k = ∑ k ∈ range d, q' k * G' n k :=
    sum_congr rfl fun k hk => by rw [hq k (mem_range.1 hk), hG n k (mem_range.1 hk)]
  rw [this]

theorem tempAt_congr (hU : ∀ l, l < (P.d + 1) * (P.d + 1) → U l = U' l) : P.tempAt U = P.tempAt U' :=
  interp_congr fun n hn => hU _ (by
    rw [Nat.mul_comm (P.d + 1) n]; exact dof_lt hn (Nat.lt_succ_self _))

theorem solidRow_congr (hd : P.d = 1 ∨ P.d = 2 ∨ P.d = 3) (hU : ∀ l, l < (P.d + 1) * (P.d + 1) → U l = U' l)
    (hZ : ∀ n, n < P.d + 1 → Z n = Z' n) (hX : ∀ a k, a < P.d + 1 → k < P.d → X a k = X' a k) :
    P.solidRow fabs U Z X = P.solidRow fabs U' Z' X' := by
  have hv : P.volForm fabs X = P.volForm fabs X' := by
    unfold Tm.volForm
    rw [detForm_congr hd hX]
  have hG : ∀ n j, j < P.d → gradForm P.d X n j = gradForm P.d X' n j := fun n j hj => gradForm_congr hd hX hj
  have hE : ∀ t, P.strainForm U X t = P.strainForm U' X' t := fun t =>
    voigtStrain_congr hd (fun n i hn hi => hU _ (dof_lt hn (hi.trans (Nat.lt_succ_self _)))) fun n j _ hj => hG n j hj
  have hT : ∀ k, k < P.d → P.gradT U X k = P.gradT U' X' k := fun k hk =>
    scalarField_congr (fun n hn => hU _ (dof_lt hn (Nat.lt_succ_self _))) fun n _ => hG n k hk
  have h1 : ∀ v : R, stressRow P.d (P.d + 1) v (P.stressForm U Z X) (gradForm P.d X) =
      stressRow P.d (P.d + 1) v (P.stressForm U' Z' X') (gradForm P.d X') := fun v =>
    stressRow_congr hd (fun t _ => by
      unfold Tm.stressForm Tm.solidStress
      rw [meanDensity_congr hZ, tempAt_congr hU]
      simp only [hE]) hG
  have h2 : ∀ v : R, fluxRow P.d (P.d + 1) P.d v (P.fluxForm U Z X) (gradForm P.d X) =
      fluxRow P.d (P.d + 1) P.d v (P.fluxForm U' Z' X') (gradForm P.d X') := fun v =>
    fluxRow_congr (fun k _ => by
      unfold Tm.fluxForm Tm.solidFlux
      rw [meanDensity_congr hZ, tempAt_congr hU]
      congr 1
      exact sum_congr rfl fun j hj => by rw [hT j (mem_range.1 hj)]) hG
  unfold Tm.solidRow
  rw [hv, h1, h2]

theorem tmLoadRow_congr {c gc : ℕ} (hZ : ∀ n, n < P.d + 1 → Z n = Z' n) :
    P.loadRow c gc Z = P.loadRow c gc Z' := by
  unfold Tm.loadRow BodyLoad.row
  rw [meanDensity_congr hZ]

theorem heatForm_congr (hU : ∀ l, l < (P.d + 1) * (P.d + 1) → U l = U' l)
    (hV : ∀ l, l < (P.d + 1) * (P.d + 1) → V l = V' l) (hZ : ∀ n, n < P.d + 1 → Z n = Z' n) :
    P.heatForm U V Z = P.heatForm U' V' Z' := by
  unfold Tm.heatForm
  rw [tempAt_congr hU, tempAt_congr hV, meanDensity_congr hZ]

end Congr

section Row
variable {R : Type} [CommRing R] [Div R] {fabs : R → R} {M : FeModel} {P : Nat → Tm R}
  (hdim : M.dim = 2 ∨ M.dim = 3) (hndof : M.ndof = M.dim + 1)
  (hd : ∀ k, k < M.domains.length → (P k).d = M.dim)
  (hb : ∀ k, k < M.domains.length → (P k).basis.length = M.dim + 1)
  (hlaw : ∀ k, k < M.domains.length → (P k).law.Ok M.dim)
include hdim hndof hd hb hlaw

theorem thermoelastic_row
    (hL : ∀ k cells, M.part k = some cells → ∀ B ∈ (P k).bodyLoads, BodyLoad.Ok B M.dim (M.dim + 1) cells)
    {init : Nat → Nat → Nat → Nat} {sch : Nat → Nat → List Nat}
    (hs : ∀ k j, IsSchedule (sch k j) (M.size (M.part k))) :
    RowEv M (thermoelastic fabs M P init sch) fun k c S Z X =>
      (P k).staticRow fabs c (gcell (M.part k) c) S Z X := by
  refine ⟨?_, ?_, ?_⟩
  · intro k cells s z x r hp hP hr0 hr1
    have hk := part_lt hp
    have hdk := hd k hk
    have hsz : M.size (M.part k) = cells.length := by rw [hp]; rfl
    have hnp : M.npc = (P k).d + 1 := by rw [FeModel.npc, hdk]
    have hnd : M.npc * M.ndof = ((P k).d + 1) * ((P k).d + 1) := by rw [hndof, hnp, hdk]
    obtain ⟨w, hw, -⟩ := static_ok fabs (P := P k) (cells := cells) (state := s)
      (control := z) (config := x) (by rw [hdk]; exact hdim) (by rw [hb k hk, hdk]) (by rw [hdk]; exact hlaw k hk)
      ⟨(hP.s0.trans hsz).ge, (hP.s1.trans hnd).ge, (hP.z0.trans hsz).ge, (hP.z1.trans hnp).ge,
        (hP.x0.trans hsz).ge, hP.x1.trans hnp, by rw [hP.x2, hdk]⟩
      (by rw [hdk]; exact hL k cells hp) (sched := sch k) (fun j => hsz ▸ hs k j) (init k) (result := r)
      (hr0.trans hsz).ge (hr1.trans hnd).ge
    unfold thermoelastic
    rw [hp]
    dsimp only
    rw [hw, Res.ok_bind]
    rfl
  · intro k s z x r hp
    unfold thermoelastic
    rw [hp]
  · intro k c S S' Z Z' X X' hk hS hZ hX l _
    have hdk := hd k hk
    have hnp : M.npc = (P k).d + 1 := by rw [FeModel.npc, hdk]
    have hnd : M.npc * M.ndof = ((P k).d + 1) * ((P k).d + 1) := by rw [hndof, hnp, hdk]
    have hZ' : ∀ n, n < (P k).d + 1 → Z n = Z' n := fun n hn => hZ n (by omega)
    have hr : (P k).solidRow fabs S Z X = (P k).solidRow fabs S' Z' X' :=
      solidRow_congr (by rw [hdk]; exact .inr hdim) (fun l hl => hS l (by omega)) hZ'
        fun a i ha hi => hX a i (by omega) (by omega)
    unfold Tm.staticRow
    rw [hr, tmLoadRow_congr hZ']

theorem thermomech_row {init : Nat → Nat → Nat → Nat} {sch : Nat → List Nat}
    (hs : ∀ k, IsSchedule (sch k) (M.size (M.part k))) :
    ParRowEv M (thermomech fabs M P init sch) fun k _ S V Z X => (P k).transientRow fabs S V Z X := by
  refine ⟨?_, ?_, ?_⟩
  · intro k cells s v z x r hp hP hv0 hv1 hr0 hr1
    have hk := part_lt hp
    have hdk := hd k hk
    have hsz : M.size (M.part k) = cells.length := by rw [hp]; rfl
    have hnp : M.npc = (P k).d + 1 := by rw [FeModel.npc, hdk]
    have hnd : M.npc * M.ndof = ((P k).d + 1) * ((P k).d + 1) := by rw [hndof, hnp, hdk]
    obtain ⟨w, hw, -⟩ := transient_ok fabs (P := P k) (nc := cells.length) (state := s) (rate := v)
      (control := z) (config := x) (by rw [hdk]; exact hdim) (by rw [hb k hk, hdk]) (by rw [hdk]; exact hlaw k hk)
      ⟨(hP.s0.trans hsz).ge, (hP.s1.trans hnd).ge, (hP.z0.trans hsz).ge, (hP.z1.trans hnp).ge,
        (hP.x0.trans hsz).ge, hP.x1.trans hnp, by rw [hP.x2, hdk]⟩
      (hv0.trans hsz).ge (hv1.trans hnd).ge (order := sch k) (hsz ▸ hs k) (init k) (result := r)
      (hr0.trans hsz).ge (hr1.trans hnd).ge
    unfold thermomech
    rw [hp]
    dsimp only
    rw [hw, Res.ok_bind]
    rfl
  · intro k s v z x r hp
    unfold thermomech
    rw [hp]
  · intro k c S S' V V' Z Z' X X' hk hS hV hZ hX
    have hdk := hd k hk
    have hnp : M.npc = (P k).d + 1 := by rw [FeModel.npc, hdk]
    have hnd : M.npc * M.ndof = ((P k).d + 1) * ((P k).d + 1) := by rw [hndof, hnp, hdk]
    have hZ' : ∀ n, n < (P k).d + 1 → Z n = Z' n := fun n hn => hZ n (by omega)
    have hX' : ∀ a i, a < (P k).d + 1 → i < (P k).d → X a i = X' a i :=
      fun a i ha hi => hX a i (by omega) (by omega)
    have hr : (P k).solidRow fabs S Z X = (P k).solidRow fabs S' Z' X' :=
      solidRow_congr (by rw [hdk]; exact .inr hdim) (fun l hl => hS l (by omega)) hZ' hX'
    have hv : (P k).volForm fabs X = (P k).volForm fabs X' := by
      unfold Tm.volForm
      rw [detForm_congr (by rw [hdk]; exact .inr hdim) hX']
    unfold Tm.transientRow
    rw [hr, hv, heatForm_congr (fun l hl => hS l (by omega)) (fun l hl => hV l (by omega)) hZ']

end Row

section
variable {E : Type} [NormedAddCommGroup E] [NormedSpace ℝ E] {L : ℕ → E →L[ℝ] ℝ} {N : ℕ} {x : E}
  {P : Tm ℝ} {penF : Fad → Fad} {UF VF ZF : ℕ → Fad} {XF : ℕ → ℕ → Fad} {UR VR ZR : E → ℕ → ℝ}
  {XR : E → ℕ → ℕ → ℝ}

theorem fluxRow_tracks {d ndof off : Nat} {vF : Fad} {vR : E → ℝ} {qF : Nat → Fad} {qR : E → Nat → ℝ}
    {GF : Nat → Nat → Fad} {GR : E → Nat → Nat → ℝ} (hv : Tracks L N x vF vR)
    (hq : ∀ k, k < d → Tracks L N x (qF k) fun y => qR y k)
    (hG : ∀ n j, j < d → Tracks L N x (GF n j) fun y => GR y n j) (r : Nat) :
    Tracks L N x (fluxRow d ndof off vF qF GF r) fun y => fluxRow d ndof off (vR y) (qR y) (GR y) r := by
  unfold fluxRow
  simp only [Finset.sum_apply]
  exact Tracks.sum _ fun n _ => single_tracks ((Tracks.one.mul (Tracks.sum _ fun k hk =>
    (hq k (mem_range.1 hk)).mul (hG n k (mem_range.1 hk)))).mul hv)

theorem heatRow_tracks {d ndof off : Nat} {BF : Nat → Fad} {B : Nat → ℝ} {vF : Fad} {vR : E → ℝ}
    {fF : Fad} {fR : E → ℝ} (hB : ∀ n, Tracks L N x (BF n) fun _ => B n) (hv : Tracks L N x vF vR)
    (hf : Tracks L N x fF fR) (r : Nat) :
    Tracks L N x (heatRow d ndof off BF vF fF r) fun y => heatRow d ndof off B (vR y) (fR y) r := by
  unfold heatRow
  simp only [Finset.sum_apply]
  exact Tracks.sum _ fun n _ => single_tracks (((Tracks.one.mul (hB n)).mul hf).mul hv)

theorem table_tracks {F : Table ℝ} {nl : Bool} {TF : Fad} {TR : E → ℝ} (hT : Tracks L N x TF TR) (i j : ℕ) :
    Tracks L N x (F.lift.at nl TF i j) fun y => F.at nl (TR y) i j := by
  unfold Table.at Table.lift
  cases nl
  · exact Tracks.const _
  · exact ((hT.mul (Tracks.const _)).add (Tracks.const _)).add ((hT.mul hT).mul (Tracks.const _))

theorem normalStrain_tracks {F : TmLaw ℝ} {d : Nat} {TF : Fad} {TR : E → ℝ} (hT : Tracks L N x TF TR) (t : ℕ) :
    Tracks L N x (F.lift.normalStrain d TF t) fun y => F.normalStrain d (TR y) t := by
  unfold TmLaw.normalStrain
  by_cases h : t < d
  · simp only [h, if_true]
    exact ((Tracks.const _).mul (table_tracks hT _ _)).mul (hT.sub (Tracks.const _))
  · simp only [h, if_false]
    exact Tracks.zero

variable (hd : P.d = 1 ∨ P.d = 2 ∨ P.d = 3)
  (hU : ∀ l, l < (P.d + 1) * (P.d + 1) → Tracks L N x (UF l) fun y => UR y l)
  (hV : ∀ l, l < (P.d + 1) * (P.d + 1) → Tracks L N x (VF l) fun y => VR y l)
  (hZ : ∀ n, n < P.d + 1 → Tracks L N x (ZF n) fun y => ZR y n)
  (hX : ∀ n k, n < P.d + 1 → k < P.d → Tracks L N x (XF n k) fun y => XR y n k)
  (hdet : detForm P.d (XR x) ≠ 0) (hpen : PenOk penF P.pen (meanDensity (P.d + 1) (ZR x)))

include hU in
theorem tempAt_tracks : Tracks L N x ((P.lift penF).tempAt UF) fun y => P.tempAt (UR y) :=
  interp_tracks (fun _ _ => at0_const_tracks _ _) fun n hn => hU _ (by
    rw [Nat.mul_comm]; exact dof_lt hn (Nat.lt_succ_self _))

include hd hX hdet in
theorem tmVol_tracks : Tracks L N x ((P.lift penF).volForm Fad.fabs XF) fun y => P.volForm abs (XR y) :=
  ((detForm_tracks hd hX).fabs hdet).mul (Tracks.const _)

include hd hU hZ hX hdet hpen in
theorem solidRow_tracks (r : Nat) : Tracks L N x ((P.lift penF).solidRow Fad.fabs UF ZF XF r)
    fun y => P.solidRow abs (UR y) (ZR y) (XR y) r := by
  have hp := hpen.tracks (meanDensity_tracks (Nat.succ_ne_zero _) hZ)
  have hT := tempAt_tracks (penF := penF) hU
  refine ((stressRow_tracks hd (tmVol_tracks hd hX hdet) (fun t _ => ?_) fun n j hj => gradForm_tracks hd hX hdet hj) r).add
    ((fluxRow_tracks (tmVol_tracks hd hX hdet) (fun k _ => ?_) fun n j hj => gradForm_tracks hd hX hdet hj) r)
  · refine Tracks.mul (Tracks.sum _ fun s _ => ?_) hp
    exact ((voigtStrain_tracks (d := P.d) hd (fun n i hn hi => hU _ (dof_lt hn (hi.trans (Nat.lt_succ_self _))))
      fun n j _ hj => gradForm_tracks hd hX hdet hj).sub (normalStrain_tracks hT s)).mul (table_tracks hT t s)
  · refine Tracks.mul (Tracks.sum _ fun j hj => ?_) hp
    exact (((Tracks.const _).mul (Tracks.const _)).mul (Tracks.sum _ fun n hn =>
      (hU _ (dof_lt (mem_range.1 hn) (Nat.lt_succ_self _))).mul
        (gradForm_tracks hd hX hdet (mem_range.1 hj)))).mul (table_tracks hT k j)

include hZ in
theorem tmLoadRow_tracks (c gc r : ℕ) : Tracks L N x ((P.lift penF).loadRow c gc ZF r)
    fun y => P.loadRow c gc (ZR y) r := by
  unfold Tm.loadRow Tm.lift
  dsimp only
  induction P.bodyLoads with
  | nil => exact Tracks.zero
  | cons B Bs ih =>
    simp only [List.map_cons, List.sum_cons, Pi.add_apply] at ih ⊢
    exact (bodyLoad_tracks B hZ r).add ih

include hd hU hZ hX hdet hpen in
theorem tmStaticRow_tracks (c gc r : ℕ) : Tracks L N x ((P.lift penF).staticRow Fad.fabs c gc UF ZF XF r)
    fun y => P.staticRow abs c gc (UR y) (ZR y) (XR y) r :=
  (solidRow_tracks hd hU hZ hX hdet hpen r).add (tmLoadRow_tracks hZ c gc r)

include hd hU hV hZ hX hdet hpen in
theorem transientRow_tracks (r : ℕ) : Tracks L N x ((P.lift penF).transientRow Fad.fabs UF VF ZF XF r)
    fun y => P.transientRow abs (UR y) (VR y) (ZR y) (XR y) r :=
  (solidRow_tracks hd hU hZ hX hdet hpen r).add (heatRow_tracks (fun _ => at0_const_tracks _ _)
    (tmVol_tracks hd hX hdet) (Tracks.mul (rateOf_tracks (tempAt_tracks (penF := penF) hU) (tempAt_tracks (penF := penF) hV))
      (hpen.tracks (meanDensity_tracks (Nat.succ_ne_zero _) hZ))) r)

end

section
variable {M : FeModel} {P : Nat → Tm ℝ} {penF : Nat → Fad → Fad} (h : TmOk M P)
include h

theorem lift_law {k : Nat} (hk : k < M.domains.length) : ((P k).lift (penF k)).law.Ok M.dim :=
  ⟨(h.law k hk).stiff, (h.law k hk).expand, (h.law k hk).cond⟩

theorem thermoelastic_rowR {init : Nat → Nat → Nat → Nat} {sch : Nat → Nat → List Nat}
    (hs : ∀ k j, IsSchedule (sch k j) (M.size (M.part k))) :
    RowEv M (thermoelastic abs M P init sch) fun k c S Z X =>
      (P k).staticRow abs c (gcell (M.part k) c) S Z X :=
  thermoelastic_row h.dim h.ndof h.d h.basis h.law h.loads hs

theorem thermoelastic_rowF {init : Nat → Nat → Nat → Nat} {sch : Nat → Nat → List Nat}
    (hs : ∀ k j, IsSchedule (sch k j) (M.size (M.part k))) :
    RowEv M (thermoelastic Fad.fabs M (fun k => (P k).lift (penF k)) init sch) fun k c S Z X =>
      ((P k).lift (penF k)).staticRow Fad.fabs c (gcell (M.part k) c) S Z X := by
  refine thermoelastic_row (P := fun k => (P k).lift (penF k)) h.dim h.ndof h.d (fun k hk => ?_)
    (fun k hk => lift_law h hk) (fun k cells hp B hB => ?_) hs
  · simp only [Tm.lift, List.length_map]
    exact h.basis k hk
  · obtain ⟨B', hB', rfl⟩ := List.mem_map.1 hB
    exact lift_bodyLoad_ok (h.loads k cells hp B' hB')

theorem thermomech_rowR {init : Nat → Nat → Nat → Nat} {sch : Nat → List Nat}
    (hs : ∀ k, IsSchedule (sch k) (M.size (M.part k))) :
    ParRowEv M (thermomech abs M P init sch) fun k _ S V Z X => (P k).transientRow abs S V Z X :=
  thermomech_row h.dim h.ndof h.d h.basis h.law hs

theorem thermomech_rowF {init : Nat → Nat → Nat → Nat} {sch : Nat → List Nat}
    (hs : ∀ k, IsSchedule (sch k) (M.size (M.part k))) :
    ParRowEv M (thermomech Fad.fabs M (fun k => (P k).lift (penF k)) init sch) fun k _ S V Z X =>
      ((P k).lift (penF k)).transientRow Fad.fabs S V Z X := by
  refine thermomech_row (P := fun k => (P k).lift (penF k)) h.dim h.ndof h.d (fun k hk => ?_)
    (fun k hk => lift_law h hk) hs
  simp only [Tm.lift, List.length_map]
  exact h.basis k hk

theorem thermoelastic_tracks {E : Type} [NormedAddCommGroup E] [NormedSpace ℝ E]
    {iR iF : Nat → Nat → Nat → Nat} {schR schF : Nat → Nat → List Nat}
    (hsR : ∀ k j, IsSchedule (schR k j) (M.size (M.part k)))
    (hsF : ∀ k j, IsSchedule (schF k j) (M.size (M.part k))) (x : E) :
    EvTracks M (fun _ => thermoelastic abs M P iR schR)
      (thermoelastic Fad.fabs M (fun k => (P k).lift (penF k)) iF schF) (tmGood M P penF) x := by
  refine RowEv.tracks (thermoelastic_rowR h hsR) (thermoelastic_rowF h hsF) ?_
  intro k c N L SF ZF XF SR ZR XR hk _ hS hZ hX hg l _
  have hdk := h.d k hk
  have hnp : M.npc = (P k).d + 1 := by rw [FeModel.npc, hdk]
  have hnd : M.npc * M.ndof = ((P k).d + 1) * ((P k).d + 1) := by rw [h.ndof, hnp, hdk]
  exact tmStaticRow_tracks (by rw [hdk]; exact .inr h.dim) (fun n hn => hS n (by omega)) (fun n hn => hZ n (by omega))
    (fun a i ha hi => hX a i (by omega) (by omega)) (by rw [hdk]; exact hg.1) (by rw [hdk]; exact hg.2 k hk) _ _ l

theorem thermomech_tracks {E : Type} [NormedAddCommGroup E] [NormedSpace ℝ E] (x : E) :
    ParTracks M (fun k _ S V Z X => (P k).transientRow abs S V Z X)
      (fun k _ S V Z X => ((P k).lift (penF k)).transientRow Fad.fabs S V Z X) (tmGood M P penF) x := by
  intro k c N L SF VF ZF XF SR VR ZR XR hk _ hS hV hZ hX hg l _
  have hdk := h.d k hk
  have hnp : M.npc = (P k).d + 1 := by rw [FeModel.npc, hdk]
  have hnd : M.npc * M.ndof = ((P k).d + 1) * ((P k).d + 1) := by rw [h.ndof, hnp, hdk]
  exact transientRow_tracks (by rw [hdk]; exact .inr h.dim) (fun n hn => hS n (by omega)) (fun n hn => hV n (by omega))
    (fun n hn => hZ n (by omega)) (fun a i ha hi => hX a i (by omega) (by omega)) (by rw [hdk]; exact hg.1)
    (by rw [hdk]; exact hg.2 k hk) l

end

/-! ## Derivatives of the steady residual -/

section
variable {M : FeModel} {P : Nat → Tm ℝ} {penF : Nat → Fad → Fad} (h : TmOk M P) (hM : M.Ok)
  {iR iF : Nat → Nat → Nat → Nat} {eR eF : Nat → Nat → List Nat}
  (heR : ∀ k j, IsSchedule (eR k j) (M.size (M.part k)))
  (heF : ∀ k j, IsSchedule (eF k j) (M.size (M.part k)))
  {o : List Nat} (ho : IsSchedule o M.nn) {sch : Nat → Nat → List Nat}
include h hM heR heF ho

/-- **C61**: the matrix is the derivative of the residual with respect to displacements and temperatures,
also with tensors that depend on temperature. -/
theorem C61_gradient_u {u : Fin (M.nn * M.ndof) → ℝ} {z x : List ℝ} (hz : z.length = M.nn)
    (hx : x.length = M.nn * M.dim) (hgood : ∀ c, c < M.nc → tmGood M P penF (M.cellZ z c) (M.cellX x c))
    (hs : SchedOk M sch (M.npc * M.ndof * (M.npc * M.ndof)))
    {schR : (Fin (M.nn * M.ndof) → ℝ) → Nat → Nat → List Nat}
    (hsR : ∀ y, SchedOk M (schR y) (M.npc * M.ndof)) :
    ∃ (v : (Fin (M.nn * M.ndof) → ℝ) → List ℝ) (J : Crs ℝ),
      (∀ y, M.value (thermoelastic abs M P iR eR) (schR y) (List.ofFn y) z x = .ok (v y) ∧
        (v y).length = M.nn * M.ndof) ∧
      M.gradientU (thermoelastic Fad.fabs M (fun k => (P k).lift (penF k)) iF eF) o sch (List.ofFn u) z x =
        .ok J ∧ J.WF M.nn M.nn ∧
      ∀ q, q < M.nn * M.ndof →
        HasFDerivAt (fun y => at0 (v y) q) (lin (M.nn * M.ndof) fun j => J.dense q j) u :=
  C43_gradient_u hM (tmGood_local h) hz hx hgood (thermoelastic_tracks h heR heF u) ho hs hsR

/-- **C61**: derivative with respect to the control. -/
theorem C61_gradient_z {z : Fin M.nn → ℝ} {u x : List ℝ} (hu : u.length = M.nn * M.ndof)
    (hx : x.length = M.nn * M.dim)
    (hgood : ∀ c, c < M.nc → tmGood M P penF (M.cellZ (List.ofFn z) c) (M.cellX x c))
    (hs : SchedOk M sch (M.npc * M.ndof * (M.npc * 1)))
    {schR : (Fin M.nn → ℝ) → Nat → Nat → List Nat} (hsR : ∀ y, SchedOk M (schR y) (M.npc * M.ndof)) :
    ∃ (v : (Fin M.nn → ℝ) → List ℝ) (J : Crs ℝ),
      (∀ y, M.value (thermoelastic abs M P iR eR) (schR y) u (List.ofFn y) x = .ok (v y) ∧
        (v y).length = M.nn * M.ndof) ∧
      M.gradientZ (thermoelastic Fad.fabs M (fun k => (P k).lift (penF k)) iF eF) o sch u (List.ofFn z) x =
        .ok J ∧ J.WF M.nn M.nn ∧
      ∀ q, HasFDerivAt (fun y => at0 (v y) q) (lin M.nn fun j => J.dense j q) z :=
  C43_gradient_z hM (tmGood_local h) hu hx hgood (thermoelastic_tracks h heR heF z) ho hs hsR

/-- **C61**: derivative with respect to the node coordinates, with the integrands and Jacobian
determinants of the body loads held fixed (see C49). -/
theorem C61_gradient_x_partial {x : Fin (M.nn * M.dim) → ℝ} {u z : List ℝ} (hu : u.length = M.nn * M.ndof)
    (hz : z.length = M.nn)
    (hgood : ∀ c, c < M.nc → tmGood M P penF (M.cellZ z c) (M.cellX (List.ofFn x) c))
    (hs : SchedOk M sch (M.npc * M.ndof * (M.npc * M.dim)))
    {schR : (Fin (M.nn * M.dim) → ℝ) → Nat → Nat → List Nat}
    (hsR : ∀ y, SchedOk M (schR y) (M.npc * M.ndof)) :
    ∃ (v : (Fin (M.nn * M.dim) → ℝ) → List ℝ) (J : Crs ℝ),
      (∀ y, M.value (thermoelastic abs M P iR eR) (schR y) u z (List.ofFn y) = .ok (v y) ∧
        (v y).length = M.nn * M.ndof) ∧
      M.gradientX (thermoelastic Fad.fabs M (fun k => (P k).lift (penF k)) iF eF) o sch u z (List.ofFn x) =
        .ok J ∧ J.WF M.nn M.nn ∧
      ∀ q, HasFDerivAt (fun y => at0 (v y) q) (lin (M.nn * M.dim) fun j => J.dense j q) x :=
  C43_gradient_x hM (tmGood_local h) hu hz hgood (thermoelastic_tracks h heR heF x) ho hs hsR

end

/-! ## Derivatives of the transient residual -/

section
variable {M : FeModel} {P : Nat → Tm ℝ} {penF : Nat → Fad → Fad} (h : TmOk M P) (hM : M.Ok)
  {iR iF : Nat → Nat → Nat → Nat} {eR eF : Nat → List Nat} (heR : ∀ k, IsSchedule (eR k) (M.size (M.part k)))
  (heF : ∀ k, IsSchedule (eF k) (M.size (M.part k)))
  {o : List Nat} (ho : IsSchedule o M.nn) {sch : Nat → Nat → List Nat}
include h hM heR heF ho

/-- **C62**: `gradient_u` is the derivative of `value` with respect to displacements and temperatures. -/
theorem C62_gradient_u {u : Fin (M.nn * M.ndof) → ℝ} {v z x : List ℝ} (hv : v.length = M.nn * M.ndof)
    (hz : z.length = M.nn) (hx : x.length = M.nn * M.dim)
    (hgood : ∀ c, c < M.nc → tmGood M P penF (M.cellZ z c) (M.cellX x c))
    (hs : ParSchedOk M sch (M.npc * M.ndof * (M.npc * M.ndof)))
    {schR : (Fin (M.nn * M.ndof) → ℝ) → Nat → Nat → List Nat}
    (hsR : ∀ y, ParSchedOk M (schR y) (M.npc * M.ndof)) :
    ∃ (r : (Fin (M.nn * M.ndof) → ℝ) → List ℝ) (J : Crs ℝ),
      (∀ y, parValue M (thermomech abs M P iR eR) (schR y) (List.ofFn y) v z x = .ok (r y) ∧
        (r y).length = M.nn * M.ndof) ∧
      parGradientU M (thermomech Fad.fabs M (fun k => (P k).lift (penF k)) iF eF) o sch (List.ofFn u) v z x =
        .ok J ∧ J.WF M.nn M.nn ∧
      ∀ q, q < M.nn * M.ndof →
        HasFDerivAt (fun y => at0 (r y) q) (lin (M.nn * M.ndof) fun j => J.dense q j) u :=
  par_gradient_u hM (thermomech_rowR h heR) (thermomech_rowF h heF) (tmGood_local h) ho hv hz hx hgood
    (thermomech_tracks h u) hs hsR

/-- **C62**: `gradient_v` is the derivative of `value` with respect to the rates. -/
theorem C62_gradient_v {v : Fin (M.nn * M.ndof) → ℝ} {u z x : List ℝ} (hu : u.length = M.nn * M.ndof)
    (hz : z.length = M.nn) (hx : x.length = M.nn * M.dim)
    (hgood : ∀ c, c < M.nc → tmGood M P penF (M.cellZ z c) (M.cellX x c))
    (hs : ParSchedOk M sch (M.npc * M.ndof * (M.npc * M.ndof)))
    {schR : (Fin (M.nn * M.ndof) → ℝ) → Nat → Nat → List Nat}
    (hsR : ∀ y, ParSchedOk M (schR y) (M.npc * M.ndof)) :
    ∃ (r : (Fin (M.nn * M.ndof) → ℝ) → List ℝ) (J : Crs ℝ),
      (∀ y, parValue M (thermomech abs M P iR eR) (schR y) u (List.ofFn y) z x = .ok (r y) ∧
        (r y).length = M.nn * M.ndof) ∧
      parGradientV M (thermomech Fad.fabs M (fun k => (P k).lift (penF k)) iF eF) o sch u (List.ofFn v) z x =
        .ok J ∧ J.WF M.nn M.nn ∧
      ∀ q, q < M.nn * M.ndof →
        HasFDerivAt (fun y => at0 (r y) q) (lin (M.nn * M.ndof) fun j => J.dense q j) v :=
  par_gradient_v hM (thermomech_rowR h heR) (thermomech_rowF h heF) (tmGood_local h) ho hu hz hx hgood
    (thermomech_tracks h v) hs hsR

/-- **C62**: derivative with respect to the control. -/
theorem C62_gradient_z {z : Fin M.nn → ℝ} {u v x : List ℝ} (hu : u.length = M.nn * M.ndof)
    (hv : v.length = M.nn * M.ndof) (hx : x.length = M.nn * M.dim)
    (hgood : ∀ c, c < M.nc → tmGood M P penF (M.cellZ (List.ofFn z) c) (M.cellX x c))
    (hs : ParSchedOk M sch (M.npc * M.ndof * (M.npc * 1)))
    {schR : (Fin M.nn → ℝ) → Nat → Nat → List Nat} (hsR : ∀ y, ParSchedOk M (schR y) (M.npc * M.ndof)) :
    ∃ (r : (Fin M.nn → ℝ) → List ℝ) (J : Crs ℝ),
      (∀ y, parValue M (thermomech abs M P iR eR) (schR y) u v (List.ofFn y) x = .ok (r y) ∧
        (r y).length = M.nn * M.ndof) ∧
      parGradientZ M (thermomech Fad.fabs M (fun k => (P k).lift (penF k)) iF eF) o sch u v (List.ofFn z) x =
        .ok J ∧ J.WF M.nn M.nn ∧
      ∀ q, HasFDerivAt (fun y => at0 (r y) q) (lin M.nn fun j => J.dense j q) z :=
  par_gradient_z hM (thermomech_rowR h heR) (thermomech_rowF h heF) (tmGood_local h) ho hu hv hx hgood
    (thermomech_tracks h z) hs hsR

/-- **C62**: derivative with respect to the node coordinates. -/
theorem C62_gradient_x {x : Fin (M.nn * M.dim) → ℝ} {u v z : List ℝ} (hu : u.length = M.nn * M.ndof)
    (hv : v.length = M.nn * M.ndof) (hz : z.length = M.nn)
    (hgood : ∀ c, c < M.nc → tmGood M P penF (M.cellZ z c) (M.cellX (List.ofFn x) c))
    (hs : ParSchedOk M sch (M.npc * M.ndof * (M.npc * M.dim)))
    {schR : (Fin (M.nn * M.dim) → ℝ) → Nat → Nat → List Nat}
    (hsR : ∀ y, ParSchedOk M (schR y) (M.npc * M.ndof)) :
    ∃ (r : (Fin (M.nn * M.dim) → ℝ) → List ℝ) (J : Crs ℝ),
      (∀ y, parValue M (thermomech abs M P iR eR) (schR y) u v z (List.ofFn y) = .ok (r y) ∧
        (r y).length = M.nn * M.ndof) ∧
      parGradientX M (thermomech Fad.fabs M (fun k => (P k).lift (penF k)) iF eF) o sch u v z (List.ofFn x) =
        .ok J ∧ J.WF M.nn M.nn ∧
      ∀ q, HasFDerivAt (fun y => at0 (r y) q) (lin (M.nn * M.dim) fun j => J.dense j q) x :=
  par_gradient_x hM (thermomech_rowR h heR) (thermomech_rowF h heF) (tmGood_local h) ho hu hv hz hgood
    (thermomech_tracks h x) hs hsR

end

end Plato.Tm
