import Verif.HeatCrit.Model
import Verif.Thermal.Static
import Verif.Crit.Elastic

/-!
# Closed forms of the criteria of heat conduction
-/

namespace Plato.HeatCrit
open Finset Plato Plato.Mech Plato.Thermal Plato.Crit

section
variable {R : Type} [CommRing R] [Div R] (fabs : R → R) {P : Thermal R}

/-- Work of the flux on the temperature gradient of a cell. -/
def energyForm (P : Thermal R) (U Z : Nat → R) (X : Nat → Nat → R) : R :=
  -1 * (∑ t ∈ range P.d, P.fluxForm P.law.const U Z X t * P.gradT U X t) * P.volForm fabs X

/-- Norm of the flux of a cell. -/
noncomputable def normForm (pow : R → ℝ → R) (p : Int) (P : Thermal R) (U Z : Nat → R) (X : Nat → Nat → R) : R :=
  tensorForm pow P.d p (P.fluxForm P.law.const U Z X) (P.volForm fabs X)

variable (hd : P.d = 1 ∨ P.d = 2 ∨ P.d = 3) {nc : Nat} {state control : V2 R} {config : V3 R}
include hd

theorem fluxCell_ok (hw : WsOk P.d 1 nc state control config) {c : Nat} (hc : c < nc) {w : TViews R}
    (h : w.Ok P.d nc) :
    (fluxCell fabs P state control config c w).Sat fun w' => w'.Ok P.d nc ∧
      at0 w'.vol c = P.volForm fabs (config.e c) ∧
      (∀ t, t < P.d → w'.tgrad.e c t = P.gradT (state.e c) (config.e c) t) ∧
      ∀ t, t < P.d → w'.flux.e c t = P.fluxForm P.law.const (state.e c) (control.e c) (config.e c) t := by
  obtain ⟨g, v, tg, q, T, r, e⟩ := w
  obtain ⟨g0, g1, g2, hv, t0, t1, f0, f1, hT, hr, he⟩ := h
  replace hv : v.length = nc := hv
  dsimp only at g0 g1 g2 t0 t1 f0 f1
  obtain ⟨a0, a1, b0, b1, x0, x1, x2⟩ := hw
  unfold fluxCell
  dsimp only
  rw [computeGradient_form fabs hd (by omega) x1 x2 (by omega) g1 g2 (by omega), Res.ok_bind]
  dsimp only
  rw [rd_at0 (by rw [List.length_set]; omega), Res.ok_bind, wr_eq (by rw [List.length_set]; omega),
    Res.ok_bind, scalarGrad_ok (g := V3.cell g c _) (by omega) t1 (by omega) (by omega)
      (by show c < g.d0; omega) g1 g2, Res.ok_bind,
    fluxNoTemp_ok (grad := V2.row tg c _) (by omega) f1 (by show c < tg.d0; omega) t1,
    Res.ok_bind, applyWeighting_ok (y := V2.row q c _) (by omega) b1 (by show c < q.d0; omega) f1.ge, Res.ok_bind,
    Res.pure_eq, Res.sat_ok]
  have hg : ∀ j, j < P.d → (V2.row tg c fun k => if k < P.d then
      scalarField P.d (state.e c) ((V3.cell g c fun a k => if a < P.d + 1 ∧ k < P.d then
        gradForm P.d (config.e c) a k else g.e c a k).e c) k else tg.e c k).e c j = P.gradT (state.e c) (config.e c) j := by
    intro j hj
    simp only [V2.row, V3.cell, if_true, hj]
    exact scalarField_congr (fun _ _ => rfl) fun n hn => if_pos ⟨hn, hj⟩
  refine ⟨⟨g0, g1, g2, ?_, t0, t1, f0, f1, hT, hr, he⟩, ?_, ?_, ?_⟩
  · simp only [List.length_set]; exact hv
  · dsimp only
    rw [at0_set (by rw [List.length_set]; omega), if_pos rfl, at0_set (by omega), if_pos rfl]; rfl
  · exact hg
  · intro t ht
    dsimp only
    unfold Thermal.fluxForm
    rw [← fourier_congr hg t]
    simp only [V2.row, if_true, ht]

theorem thermalEnergy_ok (hw : WsOk P.d 1 nc state control config) {order : List Nat} (hs : IsSchedule order nc)
    {result : List R} (hr : result.length = nc) :
    (parFor order (TViews.new P.d nc, result) (fun c (w, r) => do
      let w ← fluxCell fabs P state control config c w
      let r ← scalarProduct P.d c r w.flux w.tgrad w.vol (-1)
      pure (w, r)) >>= fun s => pure s.2).Sat fun r => r.length = nc ∧
      ∀ c, c < nc → at0 r c = at0 result c + energyForm fabs P (state.e c) (control.e c) (config.e c) := by
  refine Res.Sat.bind (parFor_sched hs (fun D (s : TViews R × List R) => s.1.Ok P.d nc ∧
    s.2.length = nc ∧ ∀ c, at0 s.2 c = at0 result c +
      if c ∈ D then energyForm fabs P (state.e c) (control.e c) (config.e c) else 0)
    ⟨TViews.new_ok _ _, hr, by simp⟩ ?_) ?_
  · rintro D c ⟨w, r⟩ hc hD - ⟨hok, hl, hq⟩
    refine Res.Sat.bind (fluxCell_ok fabs hd hw hc hok) ?_
    rintro w' ⟨hok', hv, ht, hf⟩
    have b0 := hok'.t0
    have b1 := hok'.t1
    have b2 := hok'.f0
    have b3 := hok'.f1
    have b4 := hok'.v
    dsimp only at hl hq
    rw [scalarProduct_ok (by omega) b3.ge (by omega) b1.ge (by omega) (by omega), Res.ok_bind]
    refine Res.Sat.ok ⟨hok', by rw [List.length_set]; exact hl, ?_⟩
    intro q
    rw [at0_set (by omega)]
    by_cases hqc : q = c
    · subst hqc
      rw [if_pos rfl, if_pos (mem_insert_self _ _), hq q, if_neg hD, add_zero, hv]
      unfold energyForm
      rw [sum_congr rfl fun t ht' => by rw [ht t (mem_range.1 ht'), hf t (mem_range.1 ht')]]
    · rw [if_neg hqc, hq q]
      simp only [mem_insert, hqc, false_or]
  · rintro ⟨w, r⟩ ⟨-, hl, hq⟩
    refine Res.Sat.ok ⟨hl, fun c hc => ?_⟩
    rw [hq c, if_pos (mem_range.2 hc)]

omit hd [Div R] in
/-- `VectorPNorm` does what `TensorPNormFunctor` does. -/
theorem vectorPNorm_eq (pow : R → ℝ → R) (len : Nat) (p : Int) {c : Nat} {r : List R} {t : V2 R} {vol : List R}
    (hc : c < r.length) (h0 : c < t.d0) (h1 : len ≤ t.d1) (hv : c < vol.length) :
    vectorPNorm pow len p c r t vol = .ok (r.set c (tensorForm pow len p (t.e c) (at0 vol c))) := by
  unfold vectorPNorm
  rw [wr_eq hc, Res.ok_bind]
  have := forRange_eq (n := len) (body := fun i (r : List R) => do
    let a ← vrd2 t c i
    let b ← vrd2 t c i
    let x ← rd r c
    wr r c (x + a * b)) (fun k => r.set c (∑ i ∈ range k, t.e c i * t.e c i)) (by
      intro k hk
      rw [vrd2_ok h0 (by omega), Res.ok_bind, Res.ok_bind, rd_at0 (by rw [List.length_set]; exact hc), Res.ok_bind,
        wr_eq (by rw [List.length_set]; exact hc), at0_set hc, if_pos rfl, List.set_set, sum_range_succ])
  rw [sum_range_zero] at this
  rw [this, Res.ok_bind]
  simp (disch := simp [hc]) only [Res.ok_bind, rd_at0, wr_eq, at0_set, if_true, List.set_set, rd_at0 hv]
  rfl

theorem fluxPNorm_ok (pow : R → ℝ → R) (p : Int) (hw : WsOk P.d 1 nc state control config) {order : List Nat}
    (hs : IsSchedule order nc) {result : List R} (hr : result.length = nc) :
    (parFor order (TViews.new P.d nc, result) (fun c (w, r) => do
      let w ← fluxCell fabs P state control config c w
      let r ← vectorPNorm pow P.d p c r w.flux w.vol
      pure (w, r)) >>= fun s => pure s.2).Sat fun r => r.length = nc ∧
      ∀ c, c < nc → at0 r c = normForm fabs pow p P (state.e c) (control.e c) (config.e c) := by
  refine Res.Sat.bind (parFor_sched hs (fun D (s : TViews R × List R) => s.1.Ok P.d nc ∧
    s.2.length = nc ∧ ∀ c ∈ D, at0 s.2 c = normForm fabs pow p P (state.e c) (control.e c) (config.e c))
    ⟨TViews.new_ok _ _, hr, by simp⟩ ?_) ?_
  · rintro D c ⟨w, r⟩ hc hD - ⟨hok, hl, hq⟩
    refine Res.Sat.bind (fluxCell_ok fabs hd hw hc hok) ?_
    rintro w' ⟨hok', hv, ht, hf⟩
    have b2 := hok'.f0
    have b3 := hok'.f1
    have b4 := hok'.v
    dsimp only at hl hq
    rw [vectorPNorm_eq pow P.d p (by omega) (by omega) b3.ge (by omega), Res.ok_bind]
    refine Res.Sat.ok ⟨hok', by rw [List.length_set]; exact hl, ?_⟩
    intro q hqD
    rw [at0_set (by omega)]
    by_cases hqc : q = c
    · subst hqc
      rw [if_pos rfl, hv]
      unfold normForm tensorForm
      rw [sum_congr rfl fun t ht' => by rw [hf t (mem_range.1 ht')]]
    · rw [if_neg hqc]
      exact hq q ((mem_insert.1 hqD).resolve_left hqc)
  · rintro ⟨w, r⟩ ⟨-, hl, hq⟩
    exact Res.Sat.ok ⟨hl, fun c hc => hq c (mem_range.2 hc)⟩

end

/-! ## Derivatives of the forms -/

section Tracks
variable {E : Type} [NormedAddCommGroup E] [NormedSpace ℝ E] {L : Nat → E →L[ℝ] ℝ} {N : Nat} {x : E}
  {P : Thermal ℝ} {penF : Fad → Fad} (hd : P.d = 1 ∨ P.d = 2 ∨ P.d = 3)
  {UF ZF : Nat → Fad} {UR ZR : E → Nat → ℝ} {XF : Nat → Nat → Fad} {XR : E → Nat → Nat → ℝ}
  (hU : ∀ l, l < P.d + 1 → Tracks L N x (UF l) fun y => UR y l)
  (hZ : ∀ n, n < P.d + 1 → Tracks L N x (ZF n) fun y => ZR y n)
  (hX : ∀ n i, n < P.d + 1 → i < P.d → Tracks L N x (XF n i) fun y => XR y n i)
  (hdet : detForm P.d (XR x) ≠ 0) (hpen : PenOk penF P.pen (meanDensity (P.d + 1) (ZR x)))
include hd hU hX hdet

theorem gradT_tracks {t : Nat} (ht : t < P.d) : Tracks L N x ((P.lift penF).gradT UF XF t)
    fun y => P.gradT (UR y) (XR y) t :=
  Tracks.sum _ fun n hn => (hU n (mem_range.1 hn)).mul (gradForm_tracks hd hX hdet ht)

include hZ hpen

theorem fluxForm_tracks {KF : Nat → Nat → Fad} {KR : E → Nat → Nat → ℝ}
    (hK : ∀ i j, Tracks L N x (KF i j) fun y => KR y i j) (t : Nat) :
    Tracks L N x ((P.lift penF).fluxForm KF UF ZF XF t) fun y => P.fluxForm (KR y) (UR y) (ZR y) (XR y) t :=
  Tracks.mul (Tracks.sum _ fun j hj => (hK t j).mul (gradT_tracks (penF := penF) hd hU hX hdet (mem_range.1 hj))).neg
    (hpen.tracks (meanDensity_tracks (Nat.succ_ne_zero _) hZ))

theorem energyForm_tracks : Tracks L N x (energyForm Fad.fabs (P.lift penF) UF ZF XF)
    fun y => energyForm abs P (UR y) (ZR y) (XR y) := by
  refine Tracks.mul (Tracks.one.neg.mul (Tracks.sum _ fun t ht => ?_))
    (((detForm_tracks hd hX).fabs hdet).mul (Tracks.const _))
  exact (fluxForm_tracks hd hU hZ hX hdet hpen (fun _ _ => Tracks.const _) t).mul
    (gradT_tracks (penF := penF) hd hU hX hdet (mem_range.1 ht))

theorem normForm_tracks {p : Int}
    (hg : (∃ t, t < P.d ∧ P.fluxForm P.law.const (UR x) (ZR x) (XR x) t ≠ 0) ∨ 2 ≤ p) :
    Tracks L N x (normForm Fad.fabs Fad.rpow p (P.lift penF) UF ZF XF)
      fun y => normForm abs (fun a q => a ^ q) p P (UR y) (ZR y) (XR y) :=
  tensor_tracks P.d p (σF := (P.lift penF).fluxForm (P.lift penF).law.const UF ZF XF)
    (σR := fun y => P.fluxForm P.law.const (UR y) (ZR y) (XR y))
    (fun t _ => fluxForm_tracks hd hU hZ hX hdet hpen (fun _ _ => Tracks.const _) t)
    (((detForm_tracks hd hX).fabs hdet).mul (Tracks.const _)) hg

end Tracks

/-! ## Forms are local -/

section Congr
variable {P : Thermal ℝ} (hd : P.d = 1 ∨ P.d = 2 ∨ P.d = 3) {U U' Z Z' : Nat → ℝ} {X X' : Nat → Nat → ℝ}
  (hU : ∀ l, l < P.d + 1 → U l = U' l) (hZ : ∀ a, a < P.d + 1 → Z a = Z' a)
  (hX : ∀ a k, a < P.d + 1 → k < P.d → X a k = X' a k)
include hd hU hX

theorem gradT_congr {t : Nat} (ht : t < P.d) : P.gradT U X t = P.gradT U' X' t :=
  scalarField_congr hU fun _ _ => gradForm_congr hd hX ht

include hZ

theorem fluxForm_congr (K : Nat → Nat → ℝ) (t : Nat) : P.fluxForm K U Z X t = P.fluxForm K U' Z' X' t := by
  unfold Thermal.fluxForm
  rw [fourier_congr (fun j hj => gradT_congr hd hU hX hj) t, meanDensity_congr hZ]

theorem energyForm_congr : energyForm abs P U Z X = energyForm abs P U' Z' X' := by
  unfold energyForm Thermal.volForm
  rw [detForm_congr hd hX, sum_congr rfl fun t ht => by
    rw [fluxForm_congr hd hU hZ hX _ t, gradT_congr hd hU hX (mem_range.1 ht)]]

theorem normForm_congr (pow : ℝ → ℝ → ℝ) (p : Int) : normForm abs pow p P U Z X = normForm abs pow p P U' Z' X' := by
  unfold normForm Thermal.volForm
  rw [detForm_congr hd hX, show P.fluxForm P.law.const U Z X = P.fluxForm P.law.const U' Z' X' from
    funext fun t => fluxForm_congr hd hU hZ hX _ t]

end Congr

end Plato.HeatCrit
