import Verif.TmCrit.Model
import Verif.Tm.Form
import Verif.Crit.Elastic

/-!
# Closed form of the internal thermoelastic energy
-/

namespace Plato.TmCrit
open Finset Plato Plato.Mech Plato.Thermal Plato.Tm Plato.Crit

section
variable {R : Type} [CommRing R] [Div R] (fabs : R → R) {P : Tm R}

/-- Work of the stress on the strain and of the flux on the temperature gradient of a cell. -/
def energyForm (P : Tm R) (U Z : Nat → R) (X : Nat → Nat → R) : R :=
  1 * (∑ t ∈ range (numVoigt P.d), P.stressForm U Z X t * P.strainForm U X t) * P.volForm fabs X +
    1 * (∑ k ∈ range P.d, P.fluxForm U Z X k * P.gradT U X k) * P.volForm fabs X

variable (hd : P.d = 2 ∨ P.d = 3) {nc : Nat} {state control : V2 R} {config : V3 R}
  (hb : P.basis.length = P.d + 1) (hL : P.law.Ok P.d) (hw : WsOk P.d (P.d + 1) nc state control config)
include hd hb hL hw

theorem energyCell_ok {c : Nat} (hc : c < nc) {w : MViews R} (h : w.Ok P.d nc) (h0 : ∀ t, w.strain.e c t = 0)
    {r : List R} (hr : r.length = nc) :
    (energyCell fabs P state control config c (w, r)).Sat fun s => s.1.Ok P.d nc ∧
      (∀ q, q ≠ c → ∀ t, s.1.strain.e q t = w.strain.e q t) ∧ s.2.length = nc ∧
      ∀ q, at0 s.2 q = at0 r q + if q = c then energyForm fabs P (state.e c) (control.e c) (config.e c) else 0 := by
  unfold energyCell
  refine Res.Sat.bind (front_ok fabs hd hb hL hw hc h h0) ?_
  rintro w' ⟨hok, hk, hq, hsame⟩
  obtain ⟨a0, a1, b0, b1, x0, x1, x2⟩ := hw
  have s0 := hok.s0
  have s1 := hok.s1
  have f0 := hok.f0
  have f1 := hok.f1
  have e0 := hok.e0
  have e1 := hok.e1
  have t0 := hok.t0
  have t1 := hok.t1
  have hv := hok.v
  dsimp only
  rw [applyWeighting_ok (by omega) b1 (by omega) (by omega), Res.ok_bind,
    applyWeighting_ok (by omega) b1 (by omega) (by omega), Res.ok_bind,
    scalarProduct_ok (t1 := V2.row w'.stress c _) (by show c < w'.stress.d0; omega) (by show _ ≤ w'.stress.d1; omega)
      (by omega) (by omega) (by omega) (by omega), Res.ok_bind,
    scalarProduct_ok (t1 := V2.row w'.flux c _) (by show c < w'.flux.d0; omega) (by show _ ≤ w'.flux.d1; omega)
      (by omega) (by omega) (by omega) (by rw [List.length_set]; omega), Res.ok_bind, Res.pure_eq, Res.sat_ok]
  refine ⟨⟨hok.g0, hok.g1, hok.g2, hok.v, hok.e0, hok.e1, hok.t0, hok.t1, hok.s0, hok.s1, hok.f0, hok.f1, hok.temp,
    hok.rate, hok.heat⟩, fun q hq t => by rw [(hsame q hq).strain], by simp only [List.length_set]; exact hr, ?_⟩
  intro q
  dsimp only
  rw [at0_set (by rw [List.length_set]; omega)]
  by_cases hqc : q = c
  · subst hqc
    rw [if_pos rfl, if_pos rfl, at0_set (by omega), if_pos rfl, hk.vol]
    unfold energyForm
    have g1 : ∀ t ∈ range (numVoigt P.d), (w'.stress.row q fun t => if t < numVoigt P.d then
        w'.stress.e q t * P.pen (meanDensity (P.d + 1) (control.e q)) else w'.stress.e q t).e q t * w'.strain.e q t =
        P.stressForm (state.e q) (control.e q) (config.e q) t * P.strainForm (state.e q) (config.e q) t := by
      intro t ht
      have ht := mem_range.1 ht
      simp only [V2.row, if_true]
      rw [if_pos ht, hq.stress t ht, hk.strain t ht]
      rfl
    have g2 : ∀ t ∈ range P.d, (w'.flux.row q fun t => if t < P.d then
        w'.flux.e q t * P.pen (meanDensity (P.d + 1) (control.e q)) else w'.flux.e q t).e q t * w'.tgrad.e q t =
        P.fluxForm (state.e q) (control.e q) (config.e q) t * P.gradT (state.e q) (config.e q) t := by
      intro t ht
      have ht := mem_range.1 ht
      simp only [V2.row, if_true]
      rw [if_pos ht, hq.flux t ht, hk.tgrad t ht]
      rfl
    rw [sum_congr rfl g1, sum_congr rfl g2]
    ring
  · rw [if_neg hqc, if_neg hqc, at0_set (by omega), if_neg hqc, add_zero]

theorem energy_ok {order : List Nat} (hs : IsSchedule order nc) {result : List R} (hr : result.length = nc) :
    (parFor order (MViews.new P.d nc, result) (energyCell fabs P state control config) >>=
      fun s => pure s.2).Sat fun r => r.length = nc ∧
      ∀ c, c < nc → at0 r c = at0 result c + energyForm fabs P (state.e c) (control.e c) (config.e c) := by
  refine Res.Sat.bind (parFor_sched hs (fun D (s : MViews R × List R) => s.1.Ok P.d nc ∧
    (∀ c, c ∉ D → ∀ t, s.1.strain.e c t = 0) ∧ s.2.length = nc ∧ ∀ c, at0 s.2 c = at0 result c +
      if c ∈ D then energyForm fabs P (state.e c) (control.e c) (config.e c) else 0)
    ⟨MViews.new_ok _ _, fun _ _ _ => rfl, hr, by simp⟩ ?_) ?_
  · rintro D c ⟨w, r⟩ hc hD - ⟨hok, h0, hl, hq⟩
    refine (energyCell_ok fabs hd hb hL hw hc hok (h0 c hD) hl).mono ?_
    rintro s ⟨k1, k2, k3, k4⟩
    refine ⟨k1, fun q hqD t => ?_, k3, fun q => ?_⟩
    · have hne : q ≠ c := by rintro rfl; exact hqD (mem_insert_self _ _)
      rw [k2 q hne]
      exact h0 q (fun h => hqD (mem_insert_of_mem h)) t
    · rw [k4 q, hq q]
      by_cases hqc : q = c
      · subst hqc
        rw [if_pos rfl, if_pos (mem_insert_self _ _), if_neg hD, add_zero]
      · simp only [mem_insert, hqc, false_or, if_false, add_zero]
  · rintro ⟨w, r⟩ ⟨-, -, hl, hq⟩
    refine Res.Sat.ok ⟨hl, fun c hc => ?_⟩
    rw [hq c, if_pos (mem_range.2 hc)]

end

/-! ## Derivatives of the form -/

section Tracks
variable {E : Type} [NormedAddCommGroup E] [NormedSpace ℝ E] {L : Nat → E →L[ℝ] ℝ} {N : Nat} {x : E}
  {P : Tm ℝ} {penF : Fad → Fad} (hd : P.d = 1 ∨ P.d = 2 ∨ P.d = 3)
  {UF ZF : Nat → Fad} {UR ZR : E → Nat → ℝ} {XF : Nat → Nat → Fad} {XR : E → Nat → Nat → ℝ}
  (hU : ∀ l, l < (P.d + 1) * (P.d + 1) → Tracks L N x (UF l) fun y => UR y l)
  (hZ : ∀ n, n < P.d + 1 → Tracks L N x (ZF n) fun y => ZR y n)
  (hX : ∀ n i, n < P.d + 1 → i < P.d → Tracks L N x (XF n i) fun y => XR y n i)
  (hdet : detForm P.d (XR x) ≠ 0) (hpen : PenOk penF P.pen (meanDensity (P.d + 1) (ZR x)))
include hd hU hZ hX hdet hpen

theorem energyForm_tracks : Tracks L N x (energyForm Fad.fabs (P.lift penF) UF ZF XF)
    fun y => energyForm abs P (UR y) (ZR y) (XR y) := by
  have hp := hpen.tracks (meanDensity_tracks (Nat.succ_ne_zero _) hZ)
  have hT := tempAt_tracks (penF := penF) hU
  have hE : ∀ t, Tracks L N x ((P.lift penF).strainForm UF XF t) fun y => P.strainForm (UR y) (XR y) t := fun t =>
    voigtStrain_tracks (d := P.d) hd (fun n i hn hi => hU _ (dof_lt hn (hi.trans (Nat.lt_succ_self _))))
      fun n j _ hj => gradForm_tracks hd hX hdet hj
  have hG : ∀ j, j < P.d → Tracks L N x ((P.lift penF).gradT UF XF j) fun y => P.gradT (UR y) (XR y) j := fun j hj =>
    Tracks.sum _ fun n hn => (hU _ (dof_lt (mem_range.1 hn) (Nat.lt_succ_self _))).mul (gradForm_tracks hd hX hdet hj)
  refine ((Tracks.one.mul (Tracks.sum _ fun t _ => ?_)).mul (tmVol_tracks hd hX hdet)).add
    ((Tracks.one.mul (Tracks.sum _ fun k hk => ?_)).mul (tmVol_tracks hd hX hdet))
  · exact (Tracks.mul (Tracks.sum _ fun s _ => ((hE s).sub (normalStrain_tracks hT s)).mul (table_tracks hT t s)) hp).mul
      (hE t)
  · exact (Tracks.mul (Tracks.sum _ fun j hj => (((Tracks.const _).mul (Tracks.const _)).mul (hG j (mem_range.1 hj))).mul
      (table_tracks hT k j)) hp).mul (hG k (mem_range.1 hk))

end Tracks

/-! ## The form is local, and is the work of the residual -/

/-- The energy of a cell is the work of stress and flux on the state itself. -/
theorem energyForm_eq (P : Tm ℝ) (U Z : Nat → ℝ) (X : Nat → Nat → ℝ) :
    energyForm abs P U Z X = cellThermo TmLaw.normalStrain P Z X U U := by
  unfold energyForm cellThermo Tm.stressForm Tm.fluxForm Tm.solidStress Tm.solidFlux
  rw [one_mul, one_mul, ← add_mul, mul_comm (_ + _), mul_assoc, mul_add (P.pen _)]
  congr 2
  · rw [mul_sum]
    refine sum_congr rfl fun t _ => ?_
    rw [sum_mul, sum_mul, mul_sum]
    exact sum_congr rfl fun s _ => by ring
  · rw [mul_sum]
    refine sum_congr rfl fun t _ => ?_
    rw [sum_mul, sum_mul, mul_sum]
    exact sum_congr rfl fun s _ => by ring

section Congr
variable {P : Tm ℝ} (hd : P.d = 1 ∨ P.d = 2 ∨ P.d = 3) {U U' Z Z' : Nat → ℝ} {X X' : Nat → Nat → ℝ}
  (hU : ∀ l, l < (P.d + 1) * (P.d + 1) → U l = U' l) (hZ : ∀ a, a < P.d + 1 → Z a = Z' a)
  (hX : ∀ a k, a < P.d + 1 → k < P.d → X a k = X' a k)
include hd hU hZ hX

theorem energyForm_congr : energyForm abs P U Z X = energyForm abs P U' Z' X' := by
  rw [energyForm_eq, energyForm_eq, ← solidRow_work P hd, ← solidRow_work P hd, solidRow_congr hd hU hZ hX]
  exact sum_congr rfl fun l hl => by rw [hU l (mem_range.1 hl)]

end Congr

end Plato.TmCrit
