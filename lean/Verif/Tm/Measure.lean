import Verif.Tm.MeasureModel
import Verif.Tm.Output
import Verif.Crit.AugLagProps

/-!
# Von Mises stress of thermomechanics (C117)
-/

namespace Plato.Tm
open Finset Plato Plato.Mech Plato.Thermal Plato.Dyn Plato.Crit

section Cells
variable {P : Nat → Tm ℝ} {k nc : Nat} (hd : (P k).d = 2 ∨ (P k).d = 3) (hb : (P k).basis.length = (P k).d + 1)
  (hL : (P k).law.Ok (P k).d) {s z : V2 ℝ} {x : V3 ℝ} (hw : WsOk (P k).d ((P k).d + 1) nc s z x)
  {e : Nat → List Nat} (he : IsSchedule (e k) nc) {r : List ℝ} (hr : r.length = nc)
include hd hb hL hw he hr

/-- **C117, value**: in the plane and in space the measure of every cell is the von Mises stress of stiffness times
strain without thermal strain, whatever the result held before.  Missing here and below: one dimension, where it is
false (`C117_one_dimension_false`). -/
theorem C117_value_partial :
    (thermalVonMises abs Real.sqrt (1 / 2) P e k s x r).Sat fun r' => r'.length = nc ∧ ∀ c, c < nc → at0 r' c =
      vonMisesForm Real.sqrt (1 / 2) (P k).d ((P k).solidStress (s.e c) (x.e c)) := by
  unfold thermalVonMises
  refine Res.Sat.bind (parFor_sched he (fun D (p : MViews ℝ × List ℝ) => p.1.Ok (P k).d nc ∧
    (∀ c, c ∉ D → ∀ t, p.1.strain.e c t = 0) ∧ p.2.length = nc ∧
    ∀ c ∈ D, at0 p.2 c = vonMisesForm Real.sqrt (1 / 2) (P k).d ((P k).solidStress (s.e c) (x.e c)))
    ⟨by rw [hr]; exact MViews.new_ok _ _, fun _ _ _ => rfl, hr, by simp⟩ ?_) ?_
  · rintro D c ⟨w, r⟩ hc hD - ⟨hok, hz, hl, hq⟩
    refine Res.Sat.bind (front_ok abs hd hb hL hw hc hok (hz c hD)) ?_
    rintro w' ⟨hok', -, hp, hf⟩
    have b0 := hok'.s0
    have b1 := hok'.s1
    dsimp only at hl hq hz ⊢
    rw [vonMises_ok Real.sqrt (1 / 2) (.inr hd) (by omega) b1.ge (by omega), Res.ok_bind]
    refine Res.Sat.ok ⟨hok', ?_, by rw [List.length_set]; exact hl, ?_⟩
    · intro r' hr' t
      have hne : r' ≠ c := by rintro rfl; exact hr' (mem_insert_self _ _)
      rw [(hf r' hne).strain]
      exact hz r' (fun h => hr' (mem_insert_of_mem h)) t
    · intro r' hr'
      rw [at0_set (by omega)]
      by_cases hne : r' = c
      · subst hne
        rw [if_pos rfl]
        exact vonMisesForm_congr Real.sqrt (1 / 2) (.inr hd) hp.stress
      · rw [if_neg hne]
        exact hq r' (mem_of_mem_insert_of_ne hr' hne)
  · rintro ⟨w, r'⟩ ⟨-, -, hl, hq⟩
    exact Res.Sat.ok ⟨hl, fun c hc => hq c (mem_range.2 hc)⟩

/-- **C117, sign**: the measure is never negative. -/
theorem C117_nonneg_partial :
    (thermalVonMises abs Real.sqrt (1 / 2) P e k s x r).Sat fun r' => ∀ c, c < nc → 0 ≤ at0 r' c :=
  (C117_value_partial hd hb hL hw he hr).mono fun r' ⟨_, h⟩ c hc => by
    rw [h c hc]
    exact C54_nonneg hd _

/-- **C117, free expansion**: a cell that moves, rotates by a small angle and expands freely at a uniform temperature has
the measure zero.  `W` is the rotation, `θ` the temperature. -/
theorem C117_free_expansion_partial {c : Nat} (hc : c < nc) (hdet : detForm (P k).d (x.e c) ≠ 0)
    (hB : ∑ n ∈ range ((P k).d + 1), at0 (P k).basis n = 1) {θ : ℝ} {b : Nat → ℝ} {W : Nat → Nat → ℝ}
    (hW : ∀ i j, W i j = -W j i)
    (hT : ∀ n, n < (P k).d + 1 → s.e c (((P k).d + 1) * n + (P k).d) = θ)
    (hU : ∀ n i, n < (P k).d + 1 → i < (P k).d → s.e c (n * ((P k).d + 1) + i) = b i + ∑ j ∈ range (P k).d,
      ((if i = j then (P k).law.scale * (P k).law.expand.at (P k).law.nonlinear θ i i * (θ - (P k).law.tref) else 0) +
        W i j) * x.e c n j) :
    (thermalVonMises abs Real.sqrt (1 / 2) P e k s x r).Sat fun r' => at0 r' c = 0 := by
  refine (C117_value_partial hd hb hL hw he hr).mono fun r' ⟨_, h⟩ => ?_
  rw [h c hc]
  have hθ : (P k).tempAt (s.e c) = θ := by
    unfold Tm.tempAt interp
    have e1 : ∀ n ∈ range ((P k).d + 1), at0 (P k).basis n * s.e c (((P k).d + 1) * n + (P k).d) =
        at0 (P k).basis n * θ := fun n hn => by rw [hT n (mem_range.1 hn)]
    rw [sum_congr rfl e1, ← sum_mul, hB, one_mul]
  have hs : ∀ t, t < numVoigt (P k).d → (P k).strainForm (s.e c) (x.e c) t = (P k).law.normalStrain (P k).d θ t := by
    intro t ht
    rw [strain_affine (.inr hd) hdet hU]
    have w0 : ∀ i, W i i = 0 := fun i => by have := hW i i; linarith
    have w01 := hW 0 1
    have w02 := hW 0 2
    have w12 := hW 1 2
    unfold TmLaw.normalStrain
    rcases hd with h2 | h2 <;> rw [h2] at ht ⊢
    · change t < 3 at ht
      interval_cases t <;> simp [voigtPair, w0] <;> linarith
    · change t < 6 at ht
      interval_cases t <;> simp [voigtPair, w0] <;> linarith
  have h0 : (P k).solidStress (s.e c) (x.e c) = fun _ => 0 := by
    funext t
    unfold Tm.solidStress
    refine sum_eq_zero fun q hq => ?_
    rw [hθ, hs q (mem_range.1 hq), sub_self, zero_mul]
  rw [h0]
  rcases hd with h2 | h2 <;> rw [h2]
  · exact (C54_zero2 _).2 ⟨rfl, rfl, rfl⟩
  · exact (C54_zero3 _).2 ⟨rfl, rfl, rfl, rfl, rfl⟩

/-- **C117, rigid motion**: a translation and a rotation by a small angle `W` added to the displacements of a cell leave
its measure as it is. -/
theorem C117_rigid_partial {s' : V2 ℝ} (hw' : WsOk (P k).d ((P k).d + 1) nc s' z x) {c : Nat} (hc : c < nc)
    (hdet : detForm (P k).d (x.e c) ≠ 0) {b : Nat → ℝ} {W : Nat → Nat → ℝ} (hW : ∀ i j, W i j = -W j i)
    (hT : ∀ n, n < (P k).d + 1 → s'.e c (((P k).d + 1) * n + (P k).d) = s.e c (((P k).d + 1) * n + (P k).d))
    (hU : ∀ n i, n < (P k).d + 1 → i < (P k).d → s'.e c (n * ((P k).d + 1) + i) =
      s.e c (n * ((P k).d + 1) + i) + (b i + ∑ j ∈ range (P k).d, W i j * x.e c n j)) :
    (thermalVonMises abs Real.sqrt (1 / 2) P e k s x r).Sat fun r₁ =>
      (thermalVonMises abs Real.sqrt (1 / 2) P e k s' x r).Sat fun r₂ => at0 r₂ c = at0 r₁ c := by
  refine (C117_value_partial hd hb hL hw he hr).mono fun r₁ ⟨_, h₁⟩ =>
    (C117_value_partial hd hb hL hw' he hr).mono fun r₂ ⟨_, h₂⟩ => ?_
  rw [h₁ c hc, h₂ c hc]
  have hθ : (P k).tempAt (s'.e c) = (P k).tempAt (s.e c) := by
    unfold Tm.tempAt interp
    exact sum_congr rfl fun n hn => congrArg _ (hT n (mem_range.1 hn))
  have hr := strain_affine (P := P k) (.inr hd) hdet (U := fun l => s'.e c l - s.e c l) (b := b) (A := W)
    fun n i hn hi => by rw [hU n i hn hi]; ring
  have hs : ∀ t, (P k).strainForm (s'.e c) (x.e c) t = (P k).strainForm (s.e c) (x.e c) t := by
    intro t
    have h0 : (P k).strainForm (fun l => s'.e c l - s.e c l) (x.e c) t = 0 := by
      rw [hr]
      split
      · have := hW (voigtPair (P k).d t).1 (voigtPair (P k).d t).1
        linarith
      · rw [hW]
        ring
    unfold Tm.strainForm voigtStrain fieldGrad at h0 ⊢
    simp only [sub_mul, sum_sub_distrib] at h0
    split at h0
    · rename_i h
      rw [if_pos h, if_pos h]
      linarith
    · rename_i h
      rw [if_neg h, if_neg h]
      linarith
  congr 1
  funext t
  unfold Tm.solidStress
  rw [hθ]
  exact sum_congr rfl fun q _ => by rw [hs q]

end Cells

/-! ## On the line -/

theorem front_ub {P : Tm ℝ} (hd : P.d = 1) (hb : P.basis.length = 2) (hx : P.law.expand.n = 1) {nc c : Nat}
    (hc : c < nc) {state control : V2 ℝ} {config : V3 ℝ} (hw : WsOk 1 2 nc state control config) :
    P.front abs state config c (MViews.new P.d nc) = .ub := by
  obtain ⟨a0, a1, b0, b1, x0, x1, x2⟩ := hw
  have hd' : P.d = 1 ∨ P.d = 2 ∨ P.d = 3 := .inl hd
  have hok := MViews.new_ok (R := ℝ) P.d nc
  generalize (MViews.new P.d nc : MViews ℝ) = w at hok
  obtain ⟨g, v, e, tg, σ, q, T, r, m⟩ := w
  obtain ⟨g0, g1, g2, hv, e0, e1, t0, t1, s0, s1, f0, f1, hT, hr, hm⟩ := hok
  replace hv : v.length = nc := hv
  replace hT : T.length = nc := hT
  dsimp only at g0 g1 g2 e0 e1 t0 t1 s0 s1 f0 f1
  have hlt : ∀ n, n < P.d + 1 → (P.d + 1) * n + P.d < state.d1 := fun n hn => by
    have h2 : n < 2 := by omega
    rw [hd]
    interval_cases n <;> omega
  unfold Tm.front
  dsimp only
  rw [computeGradient_form abs hd' (by omega) (by omega) (by omega) (by omega) g1 g2 (by omega), Res.ok_bind]
  dsimp only
  rw [rd_at0 (by rw [List.length_set]; omega), Res.ok_bind, wr_eq (by rw [List.length_set]; omega), Res.ok_bind,
    tmKinematics_ok (g := V3.cell g c _) hd' (by omega) e1 (by omega) t1 (by omega) (by rw [hd]; omega)
      (by show c < g.d0; omega) g1 g2, Res.ok_bind]
  dsimp only
  rw [interpolate1_ok (by omega) (by omega) (by omega) hlt, Res.ok_bind]
  unfold tmKinetics
  rw [rd_at0 (by rw [List.length_set]; omega), Res.ok_bind]
  have : ∀ T, thermalStrain P.d P.law T = .ub := by
    intro T
    unfold thermalStrain
    rw [hd]
    simp [forRange, forUp, voigtI, voigtJ, rd, Table.read, hx, Bind.bind, Res.bind]
  rw [this]
  rfl

/-- **C117 is false on the line**: evaluation of the measure is undefined behaviour for every rod with a cell and every
state. -/
theorem C117_one_dimension_false {P : Nat → Tm ℝ} {k : Nat} (hd : (P k).d = 1) (hb : (P k).basis.length = 2)
    (hx : (P k).law.expand.n = 1) {nc : Nat} (h0 : 0 < nc) {s z : V2 ℝ} {x : V3 ℝ} (hw : WsOk 1 2 nc s z x)
    {e : Nat → List Nat} (he : IsSchedule (e k) nc) {r : List ℝ} (hr : r.length = nc) :
    thermalVonMises abs Real.sqrt (1 / 2) P e k s x r = .ub := by
  have hlen : (e k).length = nc := by simpa using he.length_eq
  obtain ⟨c, o, ho⟩ : ∃ c o, e k = c :: o := by
    cases h : e k with
    | nil => rw [h] at hlen; simp at hlen; omega
    | cons c o => exact ⟨c, o, rfl⟩
  have hcl : c < nc := by
    have : c ∈ List.range nc := he.mem_iff.1 (by rw [ho]; simp)
    exact List.mem_range.1 this
  unfold thermalVonMises
  rw [ho, parFor_ub]
  · rfl
  · dsimp only
    rw [hr, front_ub hd hb hx hcl hw]
    rfl

/-! ## Expansion in shear -/

/-- **C117 is false for shear expansion**: a triangle whose expansivity has only the component `12` is heated by one
degree and expands freely, and the measure is not zero. -/
theorem C117_shear_expansion_false : ∃ (P : Tm ℝ) (s : V2 ℝ) (x : V3 ℝ), P.d = 2 ∧ P.law.Ok 2 ∧
    detForm 2 (x.e 0) ≠ 0 ∧ ∑ n ∈ range 3, at0 P.basis n = 1 ∧
    (∀ n, n < 3 → s.e 0 (3 * n + 2) = P.law.tref + 1) ∧
    (∀ n i, n < 3 → i < 2 → s.e 0 (n * 3 + i) = ∑ j ∈ range 2,
      P.law.scale * P.law.expand.at P.law.nonlinear (P.law.tref + 1) i j * x.e 0 n j) ∧
    (thermalVonMises abs Real.sqrt (1 / 2) (fun _ => P) (fun _ => [0]) 0 s x [0]).Sat fun r' => at0 r' 0 ≠ 0 := by
  have hU : ∀ n i, n < 3 → i < 2 →
      (if n * 3 + i = 4 ∨ n * 3 + i = 6 then (1 : ℝ) else if (n * 3 + i) % 3 = 2 then 1 else 0) =
      ∑ j ∈ range 2, shear i j * if n = j + 1 then 1 else 0 := by
    intro n i hn hi
    interval_cases n <;> interval_cases i <;> norm_num [shear, sum_range_succ]
  refine ⟨slabTm shear 0 1, ⟨1, 9, fun _ l => if l = 4 ∨ l = 6 then 1 else if l % 3 = 2 then 1 else 0⟩,
    ⟨1, 3, 2, fun _ n i => if n = i + 1 then 1 else 0⟩, rfl, ⟨rfl, rfl, rfl⟩,
    by norm_num [detForm, edge], slabTm_basis _ _ _, ?_, ?_, ?_⟩
  · intro n hn
    show (if 3 * n + 2 = 4 ∨ 3 * n + 2 = 6 then (1 : ℝ) else if (3 * n + 2) % 3 = 2 then 1 else 0) = 0 + 1
    rw [if_neg (by omega), if_pos (by omega), zero_add]
  · intro n i hn hi
    refine (hU n i hn hi).trans (sum_congr rfl fun j _ => ?_)
    simp [slabTm, slabLaw, constTable, Table.at]
  · refine (C117_value_partial (P := fun _ => slabTm shear 0 1) (k := 0) (nc := 1) (z := ⟨1, 3, fun _ _ => 1⟩)
      (.inl rfl) (by simp [slabTm]) ⟨rfl, rfl, rfl⟩
      ⟨by simp, by simp [slabTm], by simp, by simp [slabTm], by simp, rfl, rfl⟩ (IsSchedule.range 1) rfl).mono
      fun r' ⟨_, h⟩ => ?_
    rw [h 0 (by omega)]
    have hs := strain_affine (P := slabTm shear 0 1)
      (U := fun l => if l = 4 ∨ l = 6 then (1 : ℝ) else if l % 3 = 2 then 1 else 0)
      (X := fun n i => if n = i + 1 then 1 else 0) (.inr (.inl rfl))
      (by show detForm 2 _ ≠ 0; norm_num [detForm, edge]) (b := fun _ => 0) (A := shear)
      fun n i hn hi => by rw [zero_add]; exact hU n i hn hi
    intro h0
    have h2 := ((C54_zero2 _).1 h0).2.2
    unfold Tm.solidStress at h2
    simp only [hs] at h2
    norm_num [slabTm, slabLaw, constTable, Table.at, numVoigt, sum_range_succ, TmLaw.normalStrain, voigtPair, shear] at h2

/-! ## A case -/

/-- The hypotheses of `C117_free_expansion_partial`: the unit triangle, expansivity two, one degree above the reference. -/
example : (thermalVonMises abs Real.sqrt (1 / 2) (fun _ => slabTm (fun i j => if i = j then 2 else 0) 0 1)
    (fun _ => [0]) 0 ⟨1, 9, fun _ l => if l = 3 ∨ l = 7 then 2 else if l % 3 = 2 then 1 else 0⟩
    ⟨1, 3, 2, fun _ n i => if n = i + 1 then 1 else 0⟩ [0]).Sat fun r' => at0 r' 0 = 0 := by
  refine C117_free_expansion_partial (P := fun _ => slabTm (fun i j => if i = j then 2 else 0) 0 1) (k := 0) (nc := 1)
    (z := ⟨1, 3, fun _ _ => 1⟩) (.inl rfl) (by simp [slabTm]) ⟨rfl, rfl, rfl⟩
    ⟨by simp, by simp [slabTm], by simp, by simp [slabTm], by simp, rfl, rfl⟩ (IsSchedule.range 1) rfl (by omega) ?_ ?_
    (θ := 1) (b := fun _ => 0) (W := fun _ _ => 0) (by simp) ?_ ?_
  · show detForm 2 _ ≠ 0
    norm_num [detForm, edge]
  · exact slabTm_basis _ _ _
  · intro n hn
    have hn : n < 3 := hn
    show (if 3 * n + 2 = 3 ∨ 3 * n + 2 = 7 then (2 : ℝ) else if (3 * n + 2) % 3 = 2 then 1 else 0) = 1
    rw [if_neg (by omega), if_pos (by omega)]
  · intro n i hn hi
    have hn : n < 3 := hn
    have hi : i < 2 := hi
    show (if n * 3 + i = 3 ∨ n * 3 + i = 7 then (2 : ℝ) else if (n * 3 + i) % 3 = 2 then 1 else 0) = 0 + ∑ j ∈ range 2, _
    interval_cases n <;> interval_cases i <;>
      norm_num [slabTm, slabLaw, constTable, Table.at, sum_range_succ]

/-- The hypotheses of `C117_rigid_partial`: the same triangle at rest, turned. -/
example : (thermalVonMises abs Real.sqrt (1 / 2) (fun _ => slabTm shear 0 1) (fun _ => [0]) 0 ⟨1, 9, fun _ _ => 0⟩
    ⟨1, 3, 2, fun _ n i => if n = i + 1 then 1 else 0⟩ [0]).Sat fun r₁ =>
    (thermalVonMises abs Real.sqrt (1 / 2) (fun _ => slabTm shear 0 1) (fun _ => [0]) 0
      ⟨1, 9, fun _ l => if l = 4 then -1 else if l = 6 then 1 else 0⟩
      ⟨1, 3, 2, fun _ n i => if n = i + 1 then 1 else 0⟩ [0]).Sat fun r₂ => at0 r₂ 0 = at0 r₁ 0 := by
  refine C117_rigid_partial (P := fun _ => slabTm shear 0 1) (k := 0) (nc := 1) (z := ⟨1, 3, fun _ _ => 1⟩) (.inl rfl)
    (by simp [slabTm]) ⟨rfl, rfl, rfl⟩ ⟨by simp, by simp [slabTm], by simp, by simp [slabTm], by simp, rfl, rfl⟩
    (IsSchedule.range 1) rfl ⟨by simp, by simp [slabTm], by simp, by simp [slabTm], by simp, rfl, rfl⟩ (by omega) ?_
    (b := fun _ => 0) (W := fun i j => (j : ℝ) - i) (by intro i j; ring) ?_ ?_
  · show detForm 2 _ ≠ 0
    norm_num [detForm, edge]
  · intro n hn
    have hn : n < 3 := hn
    show (if 3 * n + 2 = 4 then (-1 : ℝ) else if 3 * n + 2 = 6 then 1 else 0) = 0
    rw [if_neg (by omega), if_neg (by omega)]
  · intro n i hn hi
    have hn : n < 3 := hn
    have hi : i < 2 := hi
    show (if n * 3 + i = 4 then (-1 : ℝ) else if n * 3 + i = 6 then 1 else 0) = 0 + (0 + ∑ j ∈ range 2, _)
    interval_cases n <;> interval_cases i <;> norm_num [sum_range_succ]

end Plato.Tm
