import Verif.Stab.EnergyModel
import Verif.Stab.Refute
import Verif.Crit.Energy

/-!
# C110: internal elastic energy with pressure
-/

namespace Plato.Stab
open Finset Plato Plato.Mech Plato.Thermal Plato.Plast Plato.Material
open Plato.J2 (row_e)

theorem totalStress_ok {R : Type} [CommRing R] {d c : Nat} {dev tot : V2 R} {press : List R} (h0 : c < tot.d0)
    (h1 : d ≤ tot.d1) (e0 : c < dev.d0) (e1 : d ≤ dev.d1) (hp : c < press.length) :
    totalStress d c dev press tot = .ok (tot.row c fun t => if t < d then dev.e c t + at0 press c else tot.e c t) := by
  unfold totalStress
  conv_lhs => rw [← V2.row_self tot c]
  rw [forRange_row (fun t _ => dev.e c t + at0 press c)]
  intro t f ht
  rw [vrd2_ok e0 (by omega), Res.ok_bind, rd_at0 hp, Res.ok_bind, vwr2_row h0 (by omega)]

/-- Extents of the worksets: those of the residual without nodal state. -/
abbrev EWs {R : Type} (P : Stab R) (nc : Nat) (state control : V2 R) (config : V3 R) [CommRing R] : Prop :=
  SWs P nc state ⟨nc, (P.d + 1) * P.d, fun _ _ => 0⟩ control config

/-- What the criterion adds for a cell: normal components only. -/
noncomputable def Stab.normalWork (P : Stab ℝ) (fabs : ℝ → ℝ) (U Z : Nat → ℝ) (X : Nat → Nat → ℝ) : ℝ :=
  P.volOf fabs X * P.penOf Z * ∑ i ∈ range P.d, P.totalOf U X i * P.strainOf U X i

/-- **Closed form of the criterion**, for every schedule. -/
theorem energy_ok (fabs pow23 : ℝ → ℝ) {P : Stab ℝ} (hd : P.d = 2 ∨ P.d = 3) (hB : P.basis.length = P.d + 1) {nc : Nat}
    {state control : V2 ℝ} {config : V3 ℝ} (hw : EWs P nc state control config) {order : List Nat}
    (hs : IsSchedule order nc) {result : List ℝ} (hr : result.length = nc) :
    (P.energy fabs pow23 order nc state control config result).Sat fun r => r.length = nc ∧
      ∀ c, c < nc → at0 r c = at0 result c + P.normalWork fabs (state.e c) (control.e c) (config.e c) := by
  have hds : P.d ≤ numVoigt P.d := by rcases hd with e | e <;> rw [e] <;> decide
  unfold Stab.energy
  rw [bulk_ok, Res.ok_bind, shear_ok, Res.ok_bind]
  refine Res.Sat.bind (parFor_sched hs (fun D (s : (SViews ℝ × V2 ℝ) × List ℝ) => s.1.1.Ok P.d nc ∧
    (∀ c, c ∉ D → ∀ t, s.1.1.strain.e c t = 0) ∧ Ext s.1.2 nc (numVoigt P.d) ∧
    (∀ c, c ∉ D → ∀ t, s.1.2.e c t = 0) ∧ s.2.length = nc ∧ ∀ c, at0 s.2 c = at0 result c +
      if c ∈ D then P.normalWork fabs (state.e c) (control.e c) (config.e c) else 0)
    ⟨SViews.new_ok _ _, fun _ _ _ => rfl, ⟨rfl, rfl⟩, fun _ _ _ => rfl, hr, by simp⟩ ?_) ?_
  · rintro D c ⟨⟨w, tot⟩, r⟩ hc hD - ⟨hok, hz, ht, hz', hl, hq⟩
    dsimp only at hok hz ht hz' hl hq
    have hu0 := hw.g0
    have hz0 := hw.z0
    have hdof : ∀ n, n < P.d + 1 → (P.d + 1) * n + P.d < state.d1 := by
      intro n hn
      have := dof_lt (d := P.d) (ndof := P.d + 1) (i := P.d) hn (Nat.lt_succ_self _)
      rw [Nat.mul_comm]
      have := hw.g1
      omega
    unfold Stab.energyCell
    refine Res.Sat.bind (kin_ok fabs hd hw hc hok (hz c hD)) fun w1 ⟨a1, a2, a3⟩ => ?_
    have hlp := a1.press
    rw [interpolate1_ok (by omega) hB.ge (by omega) hdof, Res.ok_bind]
    refine Res.Sat.bind (kinetics_ok fabs pow23 hd hB hw hc (w := { w1 with press := (w1.press.set c
        (interp (P.d + 1) (at0 P.basis) fun n => state.e c ((P.d + 1) * n + P.d))) })
      ⟨a1.vol, by rw [List.length_set]; exact hlp, a1.volStrain, a1.g0, a1.g1, a1.g2, a1.strain, a1.pgrad, a1.proj,
        a1.dev, a1.stab⟩ ⟨a2.grad, a2.vol, a2.strain, a2.pgrad⟩
      (p := interp (P.d + 1) (at0 P.basis) fun n => state.e c ((P.d + 1) * n + P.d))
      (by dsimp only; rw [at0_set (by omega), if_pos rfl])) fun w2 ⟨b1, b2, b3, b4, b5, b6, b7⟩ => ?_
    have hp : at0 w2.press c = P.pressOf (state.e c) := b3
    rw [totalStress_ok (by rw [ht.1]; exact hc) (by rw [ht.2]; exact hds) (by rw [b1.dev.1]; exact hc)
      (by rw [b1.dev.2]; exact hds) (by rw [b1.press]; exact hc), Res.ok_bind,
      applyWeighting_ok (y := V2.row tot c _) (by omega) hw.z1 (by show c < tot.d0; rw [ht.1]; exact hc) ht.2.ge,
      Res.ok_bind, V2.row_row,
      scalarProduct_ok (t1 := V2.row tot c _) (by show c < tot.d0; rw [ht.1]; exact hc) ht.2.ge
        (by rw [b1.strain.1]; exact hc) b1.strain.2.ge (by rw [b1.vol]; exact hc) (by show c < r.length; omega), Res.ok_bind, Res.pure_eq,
      Res.sat_ok]
    refine ⟨b1, fun q hq' t => ?_, ht, fun q hq' t => ?_, by rw [List.length_set]; exact hl, fun q => ?_⟩
    · have hne : q ≠ c := by rintro rfl; exact hq' (mem_insert_self _ _)
      dsimp only
      rw [b7]
      dsimp only
      rw [a3 q hne]
      exact hz q (fun h => hq' (mem_insert_of_mem h)) t
    · have hne : q ≠ c := by rintro rfl; exact hq' (mem_insert_self _ _)
      simp only [V2.row, hne, if_false]
      exact hz' q (fun h => hq' (mem_insert_of_mem h)) t
    · rw [at0_set (by show c < r.length; omega)]
      dsimp only
      by_cases hqc : q = c
      · subst hqc
        rw [if_pos rfl, if_pos (mem_insert_self _ _), hq q, if_neg hD, add_zero, b2.vol]
        congr 1
        have e : ∀ t ∈ range (numVoigt P.d), (tot.row q fun t => if t < numVoigt P.d then
            (tot.row q fun t => if t < P.d then w2.dev.e q t + at0 w2.press q else tot.e q t).e q t *
              P.pen (meanDensity (P.d + 1) (control.e q)) else
            (tot.row q fun t => if t < P.d then w2.dev.e q t + at0 w2.press q else tot.e q t).e q t).e q t *
            w2.strain.e q t = P.penOf (control.e q) * (if t < P.d then
              P.totalOf (state.e q) (config.e q) t * P.strainOf (state.e q) (config.e q) t else 0) := by
          intro t ht'
          have ht' := mem_range.1 ht'
          rw [row_e, if_pos ht', row_e, b2.strain t ht']
          by_cases h : t < P.d
          · rw [if_pos h, if_pos h, b5 t ht', hp]
            unfold Stab.totalOf
            rw [if_pos h]
            unfold Stab.penOf
            ring
          · rw [if_neg h, if_neg h, hz' q hD]
            ring
        rw [sum_congr rfl e, ← mul_sum, ← sum_filter, show (range (numVoigt P.d)).filter (· < P.d) = range P.d by
          ext t
          simp only [mem_filter, mem_range]
          omega]
        unfold Stab.normalWork
        ring
      · rw [if_neg hqc, hq q]
        simp only [mem_insert, hqc, false_or]
  · rintro ⟨w, r⟩ ⟨-, -, -, -, hl, hq⟩
    refine Res.Sat.ok ⟨hl, fun c hc => ?_⟩
    rw [hq c, if_pos (mem_range.2 hc)]

/-- Plain elastostatics with the same data. -/
structure Same (P : Stab ℝ) (E : Elastostatic ℝ) : Prop where
  d : P.d = E.d
  stiff : P.stiff = E.stiff
  pen : P.pen = E.pen
  weight : P.cubWeight = E.cubWeight
  ref : ∀ t, E.refStrain t = 0

/-- **C110 in part** (missing: cells with shear strain; the factor): in space, in cells of a Hookean material without
shear strain whose pressure is the bulk modulus times the change of volume, the criterion is twice the internal elastic
energy of plain elastostatics. -/
theorem C110_normal_partial (fabs pow23 : ℝ → ℝ) {P : Stab ℝ} {E : Elastostatic ℝ} (hPE : Same P E) (h3 : P.d = 3)
    (hB : P.basis.length = P.d + 1) {C : V2 ℝ} (hC : IsStiffness 3 C) (hP : Of P C) {lam mu : ℝ}
    (H : Hooke 3 lam mu C) {nc : Nat} {state u control : V2 ℝ} {config : V3 ℝ} (hw : EWs P nc state control config)
    (hu0 : nc ≤ u.d0) (hu1 : 12 ≤ u.d1)
    (hu : ∀ c n i, c < nc → n < 4 → i < 3 → state.e c (n * 4 + i) = u.e c (n * 3 + i))
    {order order' : List Nat} (hs : IsSchedule order nc) (hs' : IsSchedule order' nc) {result result' : List ℝ}
    (hr : result.length = nc) (hr' : result'.length = nc) :
    ∃ r r', P.energy fabs pow23 order nc state control config result = .ok r ∧
      E.energy fabs (1 / 2) order' nc u control config result' = .ok r' ∧
      ∀ c, c < nc → Balanced P (lam + 2 * mu / 3) (state.e c) (config.e c) →
        (∀ t, 3 ≤ t → t < 6 → P.strainOf (state.e c) (config.e c) t = 0) →
        at0 r c - at0 result c = 2 * (at0 r' c - at0 result' c) := by
  have hE3 : E.d = 3 := by rw [← hPE.d, h3]
  have hwE : WsOk E.d E.d nc u control config := by
    rw [hE3]
    exact ⟨hu0, hu1, hw.z0.ge, by have := hw.z1; omega, hw.x0.ge, by have := hw.x1; omega, by have := hw.x2; omega⟩
  obtain ⟨r, er, -, h1⟩ := energy_ok fabs pow23 (.inr h3) hB hw hs hr
  obtain ⟨r', er', -, h2⟩ := Plato.Crit.energy_ok fabs (P := E) (.inr (.inr hE3)) (1 / 2) hwE hs' hr'
  refine ⟨r, r', er, er', fun c hc hbal hsh => ?_⟩
  rw [h1 c hc, h2 c hc, add_sub_cancel_left, add_sub_cancel_left]
  have hst : ∀ t, E.strainForm (u.e c) (config.e c) t = P.strainOf (state.e c) (config.e c) t := by
    intro t
    unfold Elastostatic.strainForm Stab.strainOf
    rw [hE3, h3]
    exact voigtStrain_congr (.inr (.inr rfl)) (fun n i hn hi => (hu c n i hc hn hi).symm) fun _ _ _ _ => rfl
  have hel : ∀ t, t < 3 → P.totalOf (state.e c) (config.e c) t = E.solidStress (u.e c) (config.e c) t := by
    intro t ht
    rw [totalOf_hooke (.inr h3) (by rw [h3]; exact hC) hP (by rw [h3]; exact H) (by rw [h3]; exact_mod_cast hbal)
      (by rw [h3]; exact ht.trans (by decide)), if_pos (by omega), h3, ← elasticOf_eq (.inr h3) (by rw [h3]; exact hC) hP _ _
      (by rw [h3]; exact ht.trans (by decide))]
    unfold Stab.elasticOf Elastostatic.solidStress
    have e : ∀ s ∈ range (numVoigt 3), (E.strainForm (u.e c) (config.e c) s - E.refStrain s) * E.stiff t s =
        P.strainOf (state.e c) (config.e c) s * P.stiff t s := fun s _ => by
      rw [hst s, hPE.ref s, sub_zero, ← hPE.stiff]
    rw [h3, hE3, sum_congr rfl e]
    norm_num
  unfold Stab.normalWork Plato.Crit.energyOf Plato.Crit.weightedStress Elastostatic.volForm Stab.volOf Stab.penOf
  rw [hE3, h3, ← hPE.pen, ← hPE.weight]
  have hsum : ∑ t ∈ range (numVoigt 3), E.solidStress (u.e c) (config.e c) t * P.pen (meanDensity (3 + 1) (control.e c)) *
      E.strainForm (u.e c) (config.e c) t = P.pen (meanDensity (3 + 1) (control.e c)) *
        ∑ i ∈ range 3, P.totalOf (state.e c) (config.e c) i * P.strainOf (state.e c) (config.e c) i := by
    rw [show numVoigt 3 = 6 from rfl]
    simp only [sum_range_succ, sum_range_zero, hst, hsh 3 (by decide) (by decide), hsh 4 (by decide) (by decide),
      hsh 5 (by decide) (by decide), hel 0 (by decide), hel 1 (by decide), hel 2 (by decide)]
    ring
  rw [hsum]
  ring

/-- **C110 in part**: in the plane and in space, for all materials and pressures, the criterion is the work of the
forces of the residual on the displacements of the cell (loads apart) less the work of the shear stresses. -/
theorem C110_work_partial (fabs pow23 : ℝ → ℝ) {P : Stab ℝ} (hd : P.d = 2 ∨ P.d = 3) (hB : P.basis.length = P.d + 1)
    {cells : List Nat} {state node control : V2 ℝ} {config : V3 ℝ} (hw : SWs P cells.length state node control config)
    (hL : ∀ L ∈ P.bodyLoads, L.Ok P.d (P.d + 1) cells) {sched : Nat → List Nat}
    (hs : ∀ k, IsSchedule (sched k) cells.length) (init : Nat → Nat → Nat) {result : V2 ℝ}
    (hr0 : cells.length ≤ result.d0) (hr1 : (P.d + 1) * (P.d + 1) ≤ result.d1) {order : List Nat}
    (ho : IsSchedule order cells.length) {zero : List ℝ} (hz : zero.length = cells.length) :
    ∃ y r, P.evaluate fabs pow23 init sched cells state node control config result = .ok y ∧
      P.energy fabs pow23 order cells.length state control config zero = .ok r ∧
      ∀ c, c < cells.length → at0 r c - at0 zero c =
        ∑ n ∈ range (P.d + 1), ∑ i ∈ range P.d, state.e c (n * (P.d + 1) + i) * (y.e c (n * (P.d + 1) + i) -
            result.e c (n * (P.d + 1) + i) - P.loadRow c (atN cells c) (control.e c) (n * (P.d + 1) + i)) -
          P.volOf fabs (config.e c) * P.penOf (control.e c) * ∑ t ∈ Ico P.d (numVoigt P.d),
            P.elasticOf (state.e c) (config.e c) t * P.strainOf (state.e c) (config.e c) t := by
  have hd' : P.d = 1 ∨ P.d = 2 ∨ P.d = 3 := .inr hd
  have hds : P.d ≤ numVoigt P.d := by rcases hd with e | e <;> rw [e] <;> decide
  have hwE : EWs P cells.length state control config :=
    ⟨hw.g0, hw.g1, rfl, le_rfl, hw.z0, hw.z1, hw.x0, hw.x1, hw.x2⟩
  obtain ⟨r, er, -, h1⟩ := energy_ok fabs pow23 hd hB hwE ho hz
  refine ⟨_, r, evaluate_ok fabs pow23 hd hB hw hL hs init hr0 hr1, er, fun c hc => ?_⟩
  rw [h1 c hc, add_sub_cancel_left]
  have e : ∀ n ∈ range (P.d + 1), ∀ i ∈ range P.d, state.e c (n * (P.d + 1) + i) *
      ((addRows result cells.length fun c => P.solidRow fabs pow23 (state.e c) (node.e c) (control.e c) (config.e c) +
          P.loadRow c (atN cells c) (control.e c)).e c (n * (P.d + 1) + i) -
            result.e c (n * (P.d + 1) + i) - P.loadRow c (atN cells c) (control.e c) (n * (P.d + 1) + i)) =
      P.volOf fabs (config.e c) * P.penOf (control.e c) * (nodalForce P.d (P.totalOf (state.e c) (config.e c))
        (gradForm P.d (config.e c)) n i * state.e c (n * (P.d + 1) + i)) := by
    intro n hn i hi
    unfold addRows
    dsimp only
    rw [if_pos hc, Pi.add_apply, Pi.add_apply,
      solidRow_mom P fabs pow23 _ _ _ _ (mem_range.1 hn) (mem_range.1 hi)]
    ring
  rw [sum_congr rfl fun n hn => sum_congr rfl (e n hn)]
  simp only [← mul_sum]
  have hvw := C45_virtual_work hd' (P.totalOf (state.e c) (config.e c)) (fun n i => state.e c (n * (P.d + 1) + i))
    (gradForm P.d (config.e c))
  have hsplit : ∑ t ∈ range (numVoigt P.d), P.totalOf (state.e c) (config.e c) t * P.strainOf (state.e c) (config.e c) t =
      ∑ t ∈ range P.d, P.totalOf (state.e c) (config.e c) t * P.strainOf (state.e c) (config.e c) t +
      ∑ t ∈ Ico P.d (numVoigt P.d), P.elasticOf (state.e c) (config.e c) t * P.strainOf (state.e c) (config.e c) t := by
    rw [← sum_range_add_sum_Ico _ hds]
    congr 1
    refine sum_congr rfl fun t ht => ?_
    have : ¬ t < P.d := by have := (mem_Ico.1 ht).1; omega
    unfold Stab.totalOf Stab.devOf
    rw [if_neg this, if_neg this]
    ring
  unfold Stab.normalWork
  rw [← mul_sub]
  congr 1
  rw [eq_sub_iff_add_eq, ← hsplit, sum_comm]
  refine hvw.symm.trans (sum_congr rfl fun i _ => sum_congr rfl fun n _ => ?_)
  ring

/-- A triangle in simple shear. -/
def shearState : V2 ℝ := ⟨1, 9, fun _ l => if l = 3 then 1 else 0⟩

/-- **C110 is false for shear**: a triangle of an isotropic material in simple shear without pressure, in which the
volume equation holds.  Plain elastostatics finds energy and the residual with pressure finds forces, but the criterion
is zero. -/
theorem C110_shear_false : ∃ (P : Stab ℝ) (E : Elastostatic ℝ) (C : V2 ℝ) (lam mu : ℝ) (state u node control : V2 ℝ)
    (config : V3 ℝ), Same P E ∧ P.d = 2 ∧ 0 < lam ∧ 0 < mu ∧ IsStiffness 2 C ∧ Of P C ∧ Hooke 2 lam mu C ∧
    EWs P 1 state control config ∧ (∀ n i, n < 3 → i < 2 → state.e 0 (n * 3 + i) = u.e 0 (n * 2 + i)) ∧
    detForm 2 (config.e 0) ≠ 0 ∧ Balanced P (lam + mu) (state.e 0) (config.e 0) ∧
    ∀ (fabs pow23 : ℝ → ℝ) (init : Nat → Nat → Nat), fabs 1 = 1 →
      (∃ r, P.energy fabs pow23 [0] 1 state control config [0] = .ok r ∧ at0 r 0 = 0) ∧
      (∃ r, E.energy fabs (1 / 2) [0] 1 u control config [0] = .ok r ∧ at0 r 0 = 1 / 4) ∧
      ∃ y, P.evaluate fabs pow23 init (fun _ => [0]) [0] state node control config (nil 1 9) = .ok y ∧ y.e 0 3 = 1 / 2 := by
  obtain ⟨g1, g2, g3, g4, g5, g6, g7⟩ := tri_grad
  have hstr : ∀ t, t < 3 → (cellOf 2 fun _ => 0).strainOf (shearState.e 0) ((simplex 2).e 0) t = if t = 2 then 1 else 0 := by
    intro t ht
    unfold Stab.strainOf voigtStrain fieldGrad
    interval_cases t <;> simp [cellOf, voigtPair, sum_range_succ, shearState, g1, g2, g3, g4, g5, g6]
  have hpr : (cellOf 2 fun _ => 0).pressOf (shearState.e 0) = 0 := by
    unfold Stab.pressOf interp
    norm_num [cellOf, sum_range_succ, shearState]
  have hdv : (cellOf 2 fun _ => 0).divOf (shearState.e 0) ((simplex 2).e 0) = 0 := by
    unfold Stab.divOf
    rw [show (cellOf 2 fun _ => 0).d = 2 from rfl, sum_range_succ, sum_range_succ, sum_range_zero, hstr 0 (by decide),
      hstr 1 (by decide)]
    norm_num
  have hws : EWs (cellOf 2 fun _ => 0) 1 shearState (nil 1 3) (simplex 2) :=
    ⟨rfl, le_rfl, rfl, le_rfl, rfl, le_rfl, rfl, rfl, rfl⟩
  have hbal : Balanced (cellOf 2 fun _ => 0) (1 / 2 + 1 / 2) (shearState.e 0) ((simplex 2).e 0) := by
    unfold Balanced
    rw [hpr, hdv, mul_zero]
  refine ⟨cellOf 2 fun _ => 0, plainOf 2 fun _ => 0, hookeV 2 (1 / 2) (1 / 2), 1 / 2, 1 / 2, shearState,
    ⟨1, 6, fun _ l => if l = 2 then 1 else 0⟩, nil 1 6, nil 1 3, simplex 2, ⟨rfl, rfl, rfl, rfl, fun _ => rfl⟩, rfl,
    by norm_num, by norm_num, hookeV_stiff _ _, cell_of 2 _, hookeV_hooke (.inl rfl) _ _, hws, ?_, by rw [g7]; norm_num,
    hbal, ?_⟩
  · intro n i hn hi
    interval_cases n <;> interval_cases i <;> simp [shearState]
  · intro fabs pow23 init hf
    have hv : (cellOf 2 fun _ => 0).volOf fabs ((simplex 2).e 0) = 1 := by
      unfold Stab.volOf
      rw [show (cellOf 2 fun _ => 0).d = 2 from rfl, g7, hf]
      norm_num [cellOf]
    refine ⟨?_, ?_, ?_⟩
    · obtain ⟨r, er, -, h⟩ := energy_ok fabs pow23 (.inl rfl) (cell_basis 2 _) hws (order := [0]) (List.Perm.refl _)
        (result := [0]) rfl
      refine ⟨r, er, ?_⟩
      rw [h 0 (by decide)]
      unfold Stab.normalWork
      rw [show (cellOf 2 fun _ => 0).d = 2 from rfl, sum_range_succ, sum_range_succ, sum_range_zero, hstr 0 (by decide),
        hstr 1 (by decide)]
      simp [at0]
    · obtain ⟨r, er, -, h⟩ := Plato.Crit.energy_ok fabs (P := plainOf 2 fun _ => 0) (.inr (.inl rfl)) (1 / 2) (nc := 1)
        (state := ⟨1, 6, fun _ l => if l = 2 then 1 else 0⟩) (control := nil 1 3) (config := simplex 2)
        ⟨le_rfl, le_rfl, le_rfl, le_rfl, le_rfl, rfl, rfl⟩ (order := [0]) (List.Perm.refl _) (result := [0]) rfl
      refine ⟨r, er, ?_⟩
      have hs : ∀ t, t < 3 → (plainOf 2 fun _ => 0).strainForm (fun l => if l = 2 then 1 else 0) ((simplex 2).e 0) t =
          if t = 2 then 1 else 0 := by
        intro t ht
        unfold Elastostatic.strainForm voigtStrain fieldGrad
        interval_cases t <;> simp [plainOf, voigtPair, sum_range_succ, g1, g2, g3, g4, g5, g6]
      rw [h 0 (by decide)]
      unfold Plato.Crit.energyOf Plato.Crit.weightedStress Elastostatic.solidStress Elastostatic.volForm
      rw [show (plainOf 2 fun _ => 0).d = 2 from rfl, show numVoigt 2 = 3 from rfl, g7, hf]
      simp only [sum_range_succ, sum_range_zero, hs 0 (by decide), hs 1 (by decide), hs 2 (by decide)]
      norm_num [plainOf, hookeV, at0]
    · obtain ⟨-, y, ey, hy⟩ := C109_plane_partial fabs pow23 (cell_basis 2 _) (state := shearState) (node := nil 1 6)
        (control := nil 1 3) (config := simplex 2) (cells := [0]) ⟨rfl, le_rfl, rfl, le_rfl, rfl, le_rfl, rfl, rfl, rfl⟩
        (by simp [cellOf]) one_sched init (result := nil 1 9) le_rfl le_rfl rfl (hookeV_stiff _ _) (cell_of 2 _)
        (hookeV_hooke (.inl rfl) _ _)
      refine ⟨y, ey, ?_⟩
      have := hy 0 (by decide) hbal 1 0 (by decide) (by decide)
      rw [show y.e 0 3 = y.e 0 (1 * 3 + 0) from rfl, this, hv, hdv]
      unfold nodalForce
      rw [sum_range_succ, sum_range_succ, sum_range_zero, g3, g4]
      rw [hookeV_hooke (.inl rfl) _ _ _ _ (show voigtIndex 2 0 1 < _ by decide)]
      rw [show voigtIndex 2 0 1 = 2 from rfl, hstr 2 (by decide)]
      norm_num [nil, Stab.penOf, cellOf, Stab.loadRow]

/-- Gradient of the first basis function of the unit tetrahedron. -/
theorem tet_grad : gradForm 3 ((simplex 3).e 0) 0 0 = 1 ∧ gradForm 3 ((simplex 3).e 0) 0 1 = 0 ∧
    gradForm 3 ((simplex 3).e 0) 0 2 = 0 := by
  refine ⟨?_, ?_, ?_⟩ <;> norm_num [gradForm, cofForm, detForm, detj3, edge, simplex, sum_range_succ]

/-- Hypotheses of `C110_normal_partial`: the stretched unit tetrahedron. -/
example : Same (cellOf 3 fun _ => 0) (plainOf 3 fun _ => 0) ∧
    EWs (cellOf 3 fun _ => 0) 1 (stretch 3 fun _ => 5 / 6) (nil 1 4) (simplex 3) ∧
    Balanced (cellOf 3 fun _ => 0) (1 / 2 + 2 * (1 / 2) / 3) ((stretch 3 fun _ => 5 / 6).e 0) ((simplex 3).e 0) ∧
    (cellOf 3 fun _ => 0).divOf ((stretch 3 fun _ => 5 / 6).e 0) ((simplex 3).e 0) ≠ 0 ∧
    ∀ t, 3 ≤ t → t < 6 →
      (cellOf 3 fun _ => 0).strainOf ((stretch 3 fun _ => 5 / 6).e 0) ((simplex 3).e 0) t = 0 := by
  obtain ⟨g1, g2, g3⟩ := tet_grad
  have hs : ∀ t, t < 6 → (cellOf 3 fun _ => 0).strainOf ((stretch 3 fun _ => 5 / 6).e 0) ((simplex 3).e 0) t =
      if t = 0 then 1 else 0 := by
    intro t ht
    unfold Stab.strainOf voigtStrain fieldGrad
    interval_cases t <;> simp [cellOf, voigtPair, sum_range_succ, stretch, g1, g2, g3]
  have hdv : (cellOf 3 fun _ => 0).divOf ((stretch 3 fun _ => 5 / 6).e 0) ((simplex 3).e 0) = 1 := by
    unfold Stab.divOf
    rw [show (cellOf 3 fun _ => 0).d = 3 from rfl]
    simp [sum_range_succ, hs]
  refine ⟨⟨rfl, rfl, rfl, rfl, fun _ => rfl⟩, ⟨rfl, le_rfl, rfl, le_rfl, rfl, le_rfl, rfl, rfl, rfl⟩, ?_,
    by rw [hdv]; norm_num, fun t h3 h6 => ?_⟩
  · unfold Balanced
    rw [hdv]
    unfold Stab.pressOf interp
    norm_num [cellOf, sum_range_succ, stretch, at0]
  · rw [hs t h6, if_neg (by omega)]

end Plato.Stab
