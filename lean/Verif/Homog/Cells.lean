import Verif.Homog.Model
import Verif.Crit.Elastic
import Verif.Thermal.Functors

/-!
# Closed form of the effective energy
-/

namespace Plato.Homog
open Finset Plato Plato.Mech Plato.Crit

section
variable {R : Type} [CommRing R]

theorem homogenizedStress_ok {nv col c : Nat} {C : Nat → Nat → R} {stress strain : V2 R} (hc : c < stress.d0)
    (h1 : stress.d1 = nv) (hg : c < strain.d0) (hg1 : strain.d1 = nv) :
    homogenizedStress nv C col c stress strain = .ok (stress.row c fun i => if i < nv then
      C col i - ∑ j ∈ range nv, strain.e c j * C j i else stress.e c i) := by
  unfold homogenizedStress
  conv_lhs => rw [← V2.row_self stress c]
  rw [forRange_row (fun i _ => C col i - ∑ j ∈ range nv, strain.e c j * C j i)]
  intro i f hi
  rw [vwr2_row hc (by omega), Res.ok_bind,
    forRange_addrow (fun j => Pi.single i (-(strain.e c j * C j i))) _ (by
      intro j f hj
      rw [vrd2_ok hg (by omega), Res.ok_bind, vrd2_row hc (by omega), Res.ok_bind, vwr2_row hc (by omega)]
      congr 2
      funext r
      by_cases h : r = i
      · subst h; simp [sub_eq_add_neg]
      · simp [h])]
  congr 2
  funext r
  by_cases h : r = i
  · subst h; simp [sub_eq_add_neg]
  · simp [h]

theorem scalarProductVec_ok {terms c : Nat} {prod vol : List R} {t1 : V2 R} {t2 : Nat → R} {scale : R}
    (h1 : c < t1.d0) (h11 : terms ≤ t1.d1) (hv : c < vol.length) (hp : c < prod.length) :
    scalarProductVec terms c prod t1 t2 vol scale = .ok (prod.set c (at0 prod c +
      scale * (∑ t ∈ range terms, t1.e c t * t2 t) * at0 vol c)) := by
  rw [scalarProductVec]
  have := forRange_eq (n := terms) (body := fun t (inc : R) => do
    let a ← vrd2 t1 c t
    pure (inc + a * t2 t)) (fun k => ∑ t ∈ range k, t1.e c t * t2 t) (by
      intro k hk
      rw [vrd2_ok h1 (by omega)]
      simp only [Res.ok_bind, Res.pure_eq]
      rw [sum_range_succ])
  rw [sum_range_zero] at this
  rw [this, Res.ok_bind, rd_at0 hv, Res.ok_bind, rd_at0 hp, Res.ok_bind, wr_eq hp]

variable [Div R] (fabs : R → R) {P : Elastostatic R}

/-- Effective energy of a cell. -/
def effectiveForm (P : Elastostatic R) (col : Nat) (assumed : Nat → R) (U Z : Nat → R) (X : Nat → Nat → R) : R :=
  1 * (∑ t ∈ range (numVoigt P.d), (P.stiff col t - ∑ s ∈ range (numVoigt P.d), P.strainForm U X s * P.stiff s t) *
    P.pen (meanDensity (P.d + 1) Z) * assumed t) * P.volForm fabs X

variable (hd : P.d = 1 ∨ P.d = 2 ∨ P.d = 3) {nc : Nat} {state control : V2 R} {config : V3 R}
include hd

theorem effectiveCell_ok (col : Nat) (assumed : Nat → R) (hw : WsOk P.d P.d nc state control config) {c : Nat}
    (hc : c < nc) {w : Views R} (h : w.Ok P.d nc) (hz : ∀ t, w.strain.e c t = 0) {r : List R} (hr : r.length = nc) :
    (effectiveCell fabs P col assumed state control config c (w, r)).Sat fun s => s.1.Ok P.d nc ∧
      s.2 = r.set c (at0 r c + effectiveForm fabs P col assumed (state.e c) (control.e c) (config.e c)) ∧
      ∀ q, q ≠ c → s.1.strain.e q = w.strain.e q := by
  obtain ⟨g, v, e, s⟩ := w
  obtain ⟨g0, g1, g2, hv, e0, e1, s0, s1⟩ := h
  replace hv : v.length = nc := hv
  dsimp only at g0 g1 g2 e0 e1 s0 s1 hz
  obtain ⟨a0, a1, b0, b1, x0, x1, x2⟩ := hw
  unfold effectiveCell
  dsimp only
  rw [computeGradient_form fabs hd (by omega) x1 x2 (by show c < g.d0; omega) g1 g2 (by show c < v.length; omega), Res.ok_bind]
  dsimp only
  rw [rd_at0 (by rw [List.length_set]; omega), Res.ok_bind, wr_eq (by rw [List.length_set]; omega),
    Res.ok_bind, strain_ok (g := V3.cell g c _) hd (by omega) e1 (by omega) a1 (by show c < g.d0; omega) g1 g2 le_rfl, Res.ok_bind,
    homogenizedStress_ok (strain := V2.row e c _) (by omega) s1 (by show c < e.d0; omega) e1, Res.ok_bind,
    applyWeighting_ok (y := V2.row s c _) (by omega) b1 (by show c < s.d0; omega) s1.ge, Res.ok_bind,
    scalarProductVec_ok (t1 := V2.row (V2.row s c _) c _) (by show c < s.d0; omega) s1.ge
      (by rw [List.length_set, List.length_set]; omega) (by omega), Res.ok_bind, Res.pure_eq, Res.sat_ok]
  have hG : ∀ n k, n < P.d + 1 → k < P.d → (g.cell c (fun n k => if n < P.d + 1 ∧ k < P.d then
      gradForm P.d (config.e c) n k else g.e c n k)).e c n k = gradForm P.d (config.e c) n k := by
    intro n k hn hk
    simp only [V3.cell, if_true]
    rw [if_pos ⟨hn, hk⟩]
  have hE : ∀ t, t < numVoigt P.d → (if t < numVoigt P.d then
      (if t < P.d then 0 else e.e c t) + voigtStrain P.d (nodal P.d state c) ((g.cell c
        (fun n k => if n < P.d + 1 ∧ k < P.d then gradForm P.d (config.e c) n k else g.e c n k)).e c) t
      else e.e c t) = P.strainForm (state.e c) (config.e c) t := by
    intro t ht
    rw [if_pos ht, hz t, ite_self, zero_add]
    exact voigtStrain_congr hd (fun _ _ _ _ => rfl) hG
  refine ⟨⟨g0, g1, g2, ?_, e0, e1, s0, s1⟩, ?_, ?_⟩
  · simp only [List.length_set]; exact hv
  · dsimp only
    congr 2
    unfold effectiveForm
    have hvol : at0 ((v.set c (fabs (detForm P.d (config.e c)))).set c
        (at0 (v.set c (fabs (detForm P.d (config.e c)))) c * P.cubWeight)) c = P.volForm fabs (config.e c) := by
      rw [at0_set (by rw [List.length_set]; omega), if_pos rfl, at0_set (by omega), if_pos rfl]; rfl
    rw [hvol]
    congr 2
    refine sum_congr rfl fun t ht => ?_
    simp only [V2.row, if_true, mem_range.1 ht]
    congr 3
    refine sum_congr rfl fun j hj => ?_
    rw [hE j (mem_range.1 hj)]
  · intro q hq
    simp [V2.row, hq]

/-- `EffectiveEnergy::evaluate`. -/
theorem effectiveEnergy_ok (col : Nat) (assumed : Nat → R) (hw : WsOk P.d P.d nc state control config)
    {order : List Nat} (hs : IsSchedule order nc) {result : List R} (hr : result.length = nc) :
    (parFor order (Views.new P.d nc, result) (effectiveCell fabs P col assumed state control config) >>=
      fun s => pure s.2).Sat fun r => r.length = nc ∧ ∀ c, c < nc → at0 r c = at0 result c +
        effectiveForm fabs P col assumed (state.e c) (control.e c) (config.e c) := by
  refine Res.Sat.bind (parFor_sched hs (fun D (s : Views R × List R) => s.1.Ok P.d nc ∧
    (∀ c, c ∉ D → ∀ t, s.1.strain.e c t = 0) ∧ s.2.length = nc ∧ ∀ c, at0 s.2 c = at0 result c +
      if c ∈ D then effectiveForm fabs P col assumed (state.e c) (control.e c) (config.e c) else 0)
    ⟨Views.new_ok _ _, fun _ _ _ => rfl, hr, by simp⟩ ?_) ?_
  · rintro D c ⟨w, r⟩ hc hD - ⟨hok, hz, hl, hq⟩
    dsimp only at hl hq hz
    refine (effectiveCell_ok fabs hd col assumed hw hc hok (hz c hD) hl).mono ?_
    rintro ⟨w', r'⟩ ⟨hok', e, hf⟩
    dsimp only at e hf
    subst e
    refine ⟨hok', ?_, by rw [List.length_set]; exact hl, ?_⟩
    · intro q hq' t
      have hne : q ≠ c := by rintro rfl; exact hq' (mem_insert_self _ _)
      dsimp only
      rw [hf q hne]
      exact hz q (fun h => hq' (mem_insert_of_mem h)) t
    · intro q
      dsimp only
      rw [at0_set (by omega)]
      by_cases hqc : q = c
      · subst hqc
        rw [if_pos rfl, if_pos (mem_insert_self _ _), hq q, if_neg hD, add_zero]
      · rw [if_neg hqc, hq q]
        simp only [mem_insert, hqc, false_or]
  · rintro ⟨w, r⟩ ⟨-, -, hl, hq⟩
    refine Res.Sat.ok ⟨hl, fun c hc => ?_⟩
    rw [hq c, if_pos (mem_range.2 hc)]

end

section Tracks
variable {E : Type} [NormedAddCommGroup E] [NormedSpace ℝ E] {L : Nat → E →L[ℝ] ℝ} {N : Nat} {x : E}
  {P : Elastostatic ℝ} {penF : Fad → Fad} (hd : P.d = 1 ∨ P.d = 2 ∨ P.d = 3)
  {UF ZF : Nat → Fad} {UR ZR : E → Nat → ℝ} {XF : Nat → Nat → Fad} {XR : E → Nat → Nat → ℝ}
  (hU : ∀ l, l < (P.d + 1) * P.d → Tracks L N x (UF l) fun y => UR y l)
  (hZ : ∀ n, n < P.d + 1 → Tracks L N x (ZF n) fun y => ZR y n)
  (hX : ∀ n i, n < P.d + 1 → i < P.d → Tracks L N x (XF n i) fun y => XR y n i)
  (hdet : detForm P.d (XR x) ≠ 0) (hpen : PenOk penF P.pen (meanDensity (P.d + 1) (ZR x)))
include hd hU hZ hX hdet hpen

theorem effectiveForm_tracks (col : Nat) (a : Nat → ℝ) :
    Tracks L N x (effectiveForm Fad.fabs (P.lift penF) col (fun t => Fad.const (a t)) UF ZF XF)
      fun y => effectiveForm abs P col a (UR y) (ZR y) (XR y) := by
  refine Tracks.mul (Tracks.one.mul (Tracks.sum _ fun t _ => ?_))
    (((detForm_tracks hd hX).fabs hdet).mul (Tracks.const _))
  refine Tracks.mul (Tracks.mul (Tracks.sub (Tracks.const _) (Tracks.sum _ fun s _ => ?_))
    (hpen.tracks (meanDensity_tracks (Nat.succ_ne_zero _) hZ))) (Tracks.const _)
  exact (strainForm_tracks hd hU hX hdet s).mul (Tracks.const _)

end Tracks

end Plato.Homog
