import Verif.Dyn.Element
import Verif.Dyn.Hyperbolic
import Verif.Thermal.Form

/-!
# Structural dynamics as a hyperbolic vector function

The residual adds one row to every cell, and the row computed with automatic differentiation values tracks
the row computed with numbers.
-/

namespace Plato.Dyn
open Finset Plato Plato.Mech Plato.Thermal

/-- The residual instantiated with automatic differentiation values. -/
def Dyn.lift (P : Dyn ℝ) (penF : Fad → Fad) : Dyn Fad :=
  ⟨P.el.lift penF, P.basis.map Fad.const, Fad.const P.density, Fad.const P.rayA, Fad.const P.rayB, P.damped,
    P.plottable⟩

/-- What the residual needs from the problem. -/
structure DynOk (M : FeModel) (P : Nat → Dyn ℝ) : Prop where
  el : ResOk M fun k => (P k).el
  basis : ∀ k, k < M.domains.length → (P k).basis.length = M.dim + 1
  damped : ∀ k, k < M.domains.length → (P k).DampedOk

section Congr
variable {R : Type} [CommRing R] [Div R] {fabs : R → R} {P : Dyn R} {U U' V V' A A' Z Z' : Nat → R}
  {X X' : Nat → Nat → R}

theorem stressRow_congr {d ndof : Nat} (hd : d = 1 ∨ d = 2 ∨ d = 3) {v : R} {σ σ' : Nat → R} {G G' : Nat → Nat → R}
    (hσ : ∀ t, t < numVoigt d → σ t = σ' t) (hG : ∀ n j, j < d → G n j = G' n j) :
    stressRow d ndof v σ G = stressRow d ndof v σ' G' := by
  unfold stressRow
  refine sum_congr rfl fun i hi => sum_congr rfl fun n _ => ?_
  rw [nodalForce_congr hd (mem_range.1 hi) hσ fun j hj => hG n j hj]

theorem contentRow_congr {d ndof m off : Nat} {B : Nat → R} {v : R} {f f' : Nat → R}
    (hf : ∀ i, i < m → f i = f' i) : contentRow d ndof m off B v f = contentRow d ndof m off B v f' := by
  unfold contentRow
  refine sum_congr rfl fun n _ => sum_congr rfl fun i hi => ?_
  rw [hf i (mem_range.1 hi)]

theorem Dyn.point_congr (hU : ∀ l, l < (P.el.d + 1) * P.el.d → U l = U' l) {i : Nat} (hi : i < P.el.d) :
    P.point U i = P.point U' i :=
  interp_congr fun n hn => hU _ (by rw [Nat.mul_comm]; exact dof_lt hn hi)

theorem row_congr (hd : P.el.d = 1 ∨ P.el.d = 2 ∨ P.el.d = 3) {c gc : Nat}
    (hU : ∀ l, l < (P.el.d + 1) * P.el.d → U l = U' l) (hV : ∀ l, l < (P.el.d + 1) * P.el.d → V l = V' l)
    (hA : ∀ l, l < (P.el.d + 1) * P.el.d → A l = A' l) (hZ : ∀ n, n < P.el.d + 1 → Z n = Z' n)
    (hX : ∀ a k, a < P.el.d + 1 → k < P.el.d → X a k = X' a k) :
    P.row fabs c gc U V A Z X = P.row fabs c gc U' V' A' Z' X' := by
  have hv : P.el.volForm fabs X = P.el.volForm fabs X' := by
    unfold Elastostatic.volForm
    rw [detForm_congr hd hX]
  have h1 : ∀ v : R, stressRow P.el.d P.el.d v (P.stressForm U V Z X) (gradForm P.el.d X) =
      stressRow P.el.d P.el.d v (P.stressForm U' V' Z' X') (gradForm P.el.d X') := fun v =>
    stressRow_congr hd (fun t _ => by
      unfold Dyn.stressForm Dyn.solidStress
      rw [meanDensity_congr hZ]
      simp only [strainForm_congr hd hU hX, strainForm_congr hd hV hX]) fun n j hj => gradForm_congr hd hX hj
  have h2 : ∀ v : R, contentRow P.el.d P.el.d P.el.d 0 (at0 P.basis) v (P.inertiaForm V A Z) =
      contentRow P.el.d P.el.d P.el.d 0 (at0 P.basis) v (P.inertiaForm V' A' Z') := fun v =>
    contentRow_congr fun i hi => by
      unfold Dyn.inertiaForm
      rw [meanDensity_congr hZ, Dyn.point_congr hA hi, Dyn.point_congr hV hi]
  unfold Dyn.row
  rw [hv, Mech.loadRow_congr hZ, h1, h2]

end Congr

section Row
variable {R : Type} [CommRing R] [Div R] {fabs : R → R} {M : FeModel} {P : Nat → Dyn R}

theorem dynamics_row (hdim : M.dim = 1 ∨ M.dim = 2 ∨ M.dim = 3) (hndof : M.ndof = M.dim)
    (hd : ∀ k, k < M.domains.length → (P k).el.d = M.dim)
    (hb : ∀ k, k < M.domains.length → (P k).basis.length = M.dim + 1)
    (hdm : ∀ k, k < M.domains.length → (P k).DampedOk)
    (hL : ∀ k cells, M.part k = some cells → ∀ B ∈ (P k).el.bodyLoads, BodyLoad.Ok B M.dim M.dim cells)
    {init : Nat → Nat → Nat → Nat} {sch : Nat → Nat → List Nat}
    (hs : ∀ k j, IsSchedule (sch k j) (M.size (M.part k))) :
    HypRowEv M (dynamics fabs M P init sch) fun k c S V A Z X =>
      (P k).row fabs c (gcell (M.part k) c) S V A Z X := by
  refine ⟨?_, ?_, ?_⟩
  · intro k cells s v a z x r hp hP hv0 hv1 ha0 ha1 hr0 hr1
    have hk := part_lt hp
    have hdk := hd k hk
    have hsz : M.size (M.part k) = cells.length := by rw [hp]; rfl
    have hnp : M.npc = (P k).el.d + 1 := by rw [FeModel.npc, hdk]
    have hnd : M.npc * M.ndof = ((P k).el.d + 1) * (P k).el.d := by rw [hndof, hnp, hdk]
    obtain ⟨w, hw, -⟩ := evaluate_ok fabs (P := P k) (cells := cells) (state := s) (vel := v) (acc := a)
      (control := z) (config := x) (by rw [hdk]; exact hdim) (by rw [hb k hk, hdk]) (hdm k hk)
      ⟨(hP.s0.trans hsz).ge, (hP.s1.trans hnd).ge, (hP.z0.trans hsz).ge, (hP.z1.trans hnp).ge,
        (hP.x0.trans hsz).ge, hP.x1.trans hnp, by rw [hP.x2, hdk]⟩
      (hv0.trans hsz).ge (hv1.trans hnd).ge (ha0.trans hsz).ge (ha1.trans hnd).ge
      (by rw [hdk]; exact hL k cells hp) (sched := sch k) (fun j => hsz ▸ hs k j) (init k) (result := r)
      (hr0.trans hsz).ge (hr1.trans hnd).ge
    unfold dynamics
    rw [hp]
    dsimp only
    rw [hw, Res.ok_bind]
    rfl
  · intro k s v a z x r hp
    unfold dynamics
    rw [hp]
  · intro k c S S' V V' A A' Z Z' X X' hk hS hV hA hZ hX
    have hdk := hd k hk
    have hnp : M.npc = (P k).el.d + 1 := by rw [FeModel.npc, hdk]
    have hnd : M.npc * M.ndof = ((P k).el.d + 1) * (P k).el.d := by rw [hndof, hnp, hdk]
    exact row_congr (by rw [hdk]; exact hdim) (fun l hl => hS l (by omega)) (fun l hl => hV l (by omega))
      (fun l hl => hA l (by omega)) (fun n hn => hZ n (by omega)) fun a i ha hi => hX a i (by omega) (by omega)

end Row

section
variable {E : Type} [NormedAddCommGroup E] [NormedSpace ℝ E] {L : ℕ → E →L[ℝ] ℝ} {N : ℕ} {x : E}
  {P : Dyn ℝ} {penF : Fad → Fad} {UF VF AF ZF : ℕ → Fad} {XF : ℕ → ℕ → Fad} {UR VR AR ZR : E → ℕ → ℝ}
  {XR : E → ℕ → ℕ → ℝ}

theorem dynPoint_tracks (hU : ∀ l, l < (P.el.d + 1) * P.el.d → Tracks L N x (UF l) fun y => UR y l) {i : Nat}
    (hi : i < P.el.d) : Tracks L N x ((P.lift penF).point UF i) fun y => P.point (UR y) i :=
  interp_tracks (fun _ _ => at0_const_tracks _ _) fun n hn => hU _ (by rw [Nat.mul_comm]; exact dof_lt hn hi)

theorem row_tracks (hd : P.el.d = 1 ∨ P.el.d = 2 ∨ P.el.d = 3)
    (hU : ∀ l, l < (P.el.d + 1) * P.el.d → Tracks L N x (UF l) fun y => UR y l)
    (hV : ∀ l, l < (P.el.d + 1) * P.el.d → Tracks L N x (VF l) fun y => VR y l)
    (hA : ∀ l, l < (P.el.d + 1) * P.el.d → Tracks L N x (AF l) fun y => AR y l)
    (hZ : ∀ n, n < P.el.d + 1 → Tracks L N x (ZF n) fun y => ZR y n)
    (hX : ∀ n k, n < P.el.d + 1 → k < P.el.d → Tracks L N x (XF n k) fun y => XR y n k)
    (hdet : detForm P.el.d (XR x) ≠ 0) (hpen : PenOk penF P.el.pen (meanDensity (P.el.d + 1) (ZR x)))
    (c gc r : Nat) : Tracks L N x ((P.lift penF).row Fad.fabs c gc UF VF AF ZF XF r)
      fun y => P.row abs c gc (UR y) (VR y) (AR y) (ZR y) (XR y) r := by
  have hvol : Tracks L N x ((P.el.lift penF).volForm Fad.fabs XF) fun y => P.el.volForm abs (XR y) :=
    ((detForm_tracks hd hX).fabs hdet).mul (Tracks.const _)
  have hp := hpen.tracks (meanDensity_tracks (Nat.succ_ne_zero _) hZ)
  refine ((stressRow_tracks hd hvol (fun t _ => ?_) fun n j hj => gradForm_tracks hd hX hdet hj) r |>.add
    ((contentRow_tracks (fun n => at0_const_tracks _ _) hvol fun i hi => ?_) r)).add (Mech.loadRow_tracks hZ c gc r)
  · refine Tracks.mul (Tracks.sum _ fun s _ => ?_) hp
    exact (((strainForm_tracks hd hU hX hdet s).sub (Tracks.const _)).mul (Tracks.const _)).add
      (((strainForm_tracks hd hV hX hdet s).mul (Tracks.const _)).mul (Tracks.const _))
  · exact (((dynPoint_tracks hA hi).mul (Tracks.const _)).add
      (((dynPoint_tracks hV hi).mul (Tracks.const _)).mul (Tracks.const _))).mul hp

end

section
variable {M : FeModel} {P : Nat → Dyn ℝ} {penF : Nat → Fad → Fad} (h : DynOk M P)
include h

theorem dynamics_rowR {init : Nat → Nat → Nat → Nat} {sch : Nat → Nat → List Nat}
    (hs : ∀ k j, IsSchedule (sch k j) (M.size (M.part k))) :
    HypRowEv M (dynamics abs M P init sch) fun k c S V A Z X =>
      (P k).row abs c (gcell (M.part k) c) S V A Z X :=
  dynamics_row h.el.dim h.el.ndof h.el.d h.basis h.damped h.el.loads hs

theorem dynamics_rowF {init : Nat → Nat → Nat → Nat} {sch : Nat → Nat → List Nat}
    (hs : ∀ k j, IsSchedule (sch k j) (M.size (M.part k))) :
    HypRowEv M (dynamics Fad.fabs M (fun k => (P k).lift (penF k)) init sch) fun k c S V A Z X =>
      ((P k).lift (penF k)).row Fad.fabs c (gcell (M.part k) c) S V A Z X := by
  refine dynamics_row (P := fun k => (P k).lift (penF k)) h.el.dim h.el.ndof h.el.d (fun k hk => ?_)
    (fun k hk hdm => ?_) (fun k cells hp B hB => ?_) hs
  · simp only [Dyn.lift, List.length_map]
    exact h.basis k hk
  · have := h.damped k hk hdm
    simp only [Dyn.lift]
    rw [this.1, this.2]
    exact ⟨rfl, rfl⟩
  · obtain ⟨B', hB', rfl⟩ := List.mem_map.1 hB
    exact lift_bodyLoad_ok (h.el.loads k cells hp B' hB')

theorem dynamics_tracks {E : Type} [NormedAddCommGroup E] [NormedSpace ℝ E] (x : E) :
    HypTracks M (fun k c S V A Z X => (P k).row abs c (gcell (M.part k) c) S V A Z X)
      (fun k c S V A Z X => ((P k).lift (penF k)).row Fad.fabs c (gcell (M.part k) c) S V A Z X)
      (goodCell M (fun k => (P k).el) penF) x := by
  intro k c N L SF VF AF ZF XF SR VR AR ZR XR hk _ hS hV hA hZ hX hg l _
  have hdk := h.el.d k hk
  have hnp : M.npc = (P k).el.d + 1 := by rw [FeModel.npc, hdk]
  have hnd : M.npc * M.ndof = ((P k).el.d + 1) * (P k).el.d := by rw [h.el.ndof, hnp, hdk]
  exact row_tracks (by rw [hdk]; exact h.el.dim) (fun l hl => hS l (by omega)) (fun l hl => hV l (by omega))
    (fun l hl => hA l (by omega)) (fun n hn => hZ n (by omega)) (fun a i ha hi => hX a i (by omega) (by omega))
    (by rw [hdk]; exact hg.1) (by rw [hdk]; exact hg.2 k hk) _ _ l

end

end Plato.Dyn
