import Verif.Crit.Energy
import Verif.Mech.ElasticForm
import Mathlib.Analysis.SpecialFunctions.Pow.Deriv
import Mathlib.Analysis.SpecialFunctions.Sqrt

/-!
# C51 for the criteria of linear elasticity

`InternalElasticEnergy`, `Volume` and `StressPNorm` (the plain norm and the weighted norm) report their
derivatives.
-/

namespace Plato.Crit
open Finset Plato Plato.Mech

/-- The criteria fit the mesh. -/
structure MechOk (M : FeModel) (P : Nat → Elastostatic ℝ) : Prop where
  dim : M.dim = 1 ∨ M.dim = 2 ∨ M.dim = 3
  ndof : M.ndof = M.dim
  d : ∀ k, k < M.domains.length → (P k).d = M.dim

section
variable {M : FeModel} {P : Nat → Elastostatic ℝ} (h : MechOk M P)
include h

theorem MechOk.wsOk {k : Nat} (hk : k < M.domains.length) {R : Type} {s z : V2 R} {x : V3 R} (hh : PartOk M k s z x) :
    WsOk (P k).d (P k).d s.d0 s z x := by
  have hd := h.d k hk
  have hnp : M.npc = (P k).d + 1 := by rw [FeModel.npc, hd]
  refine ⟨le_rfl, ?_, by rw [hh.s0, hh.z0], ?_, by rw [hh.s0, hh.x0], hh.x1.trans hnp, by rw [hh.x2, hd]⟩
  · rw [hh.s1, hnp, h.ndof, hd]
  · rw [hh.z1, hnp]

theorem MechOk.d3 {k : Nat} (hk : k < M.domains.length) : (P k).d = 1 ∨ (P k).d = 2 ∨ (P k).d = 3 := by
  rw [h.d k hk]; exact h.dim

/-- What the criteria need from a cell. -/
theorem mechLocal {penF : Nat → Fad → Fad} : CritLocal M fun _ Z X => goodCell M P penF Z X := by
  intro U U' Z Z' X X' _ hZ hX hg
  have h' : ResOk M fun k => ⟨(P k).d, (P k).stiff, (P k).refStrain, (P k).pen, (P k).cubWeight, (P k).forcing, []⟩ :=
    ⟨h.dim, h.ndof, h.d, fun k cells _ B hB => absurd hB (List.not_mem_nil)⟩
  exact goodCell_local h' Z Z' X X' hZ hX hg

end

section Tracks
variable {E : Type} [NormedAddCommGroup E] [NormedSpace ℝ E] {L : Nat → E →L[ℝ] ℝ} {N : Nat} {x : E}
  {P : Elastostatic ℝ} {penF : Fad → Fad} (hd : P.d = 1 ∨ P.d = 2 ∨ P.d = 3)
  {UF ZF : Nat → Fad} {UR ZR : E → Nat → ℝ} {XF : Nat → Nat → Fad} {XR : E → Nat → Nat → ℝ}
  (hU : ∀ l, l < (P.d + 1) * P.d → Tracks L N x (UF l) fun y => UR y l)
  (hZ : ∀ n, n < P.d + 1 → Tracks L N x (ZF n) fun y => ZR y n)
  (hX : ∀ n i, n < P.d + 1 → i < P.d → Tracks L N x (XF n i) fun y => XR y n i)
  (hdet : detForm P.d (XR x) ≠ 0) (hpen : PenOk penF P.pen (meanDensity (P.d + 1) (ZR x)))
include hd hU hZ hX hdet hpen

theorem weightedStress_tracks (t : Nat) : Tracks L N x (weightedStress (P.lift penF) UF ZF XF t)
    fun y => weightedStress P (UR y) (ZR y) (XR y) t :=
  (solidStress_tracks hd hU hX hdet t).mul (hpen.tracks (meanDensity_tracks (Nat.succ_ne_zero _) hZ))

theorem energyOf_tracks (half : ℝ) : Tracks L N x (energyOf Fad.fabs (Fad.const half) (P.lift penF) UF ZF XF)
    fun y => energyOf abs half P (UR y) (ZR y) (XR y) := by
  refine Tracks.mul (Tracks.mul (Tracks.const half) (Tracks.sum _ fun t _ => ?_)) ?_
  · exact (weightedStress_tracks hd hU hZ hX hdet hpen t).mul (strainForm_tracks hd hU hX hdet t)
  · exact ((detForm_tracks hd hX).fabs hdet).mul (Tracks.const _)

end Tracks

/-! ## Internal elastic energy -/

section Energy
variable {M : FeModel} (hM : M.Ok) {P : Nat → Elastostatic ℝ} (h : MechOk M P) {penF : Nat → Fad → Fad}
  {eR eF : Nat → List Nat} (heR : ∀ k, IsSchedule (eR k) (M.size (M.part k)))
  (heF : ∀ k, IsSchedule (eF k) (M.size (M.part k)))
include h

omit h in
theorem at0_replicate {R : Type} [Zero R] (n c : Nat) : at0 (List.replicate n (0 : R)) c = 0 := by
  unfold at0
  rw [List.getElem?_replicate]
  split_ifs <;> rfl

include heR in
theorem energy_computes (half dt : ℝ) : Computes M (elasticEnergy abs half P eR) dt fun k U Z X =>
    energyOf abs half (P k) U Z X := by
  intro k s z x hk hp
  refine (energy_ok abs (h.d3 hk) half (h.wsOk hk hp) (by rw [hp.s0]; exact heR k)
    (by rw [List.length_replicate, hp.s0])).mono ?_
  rintro r ⟨hl, hq⟩
  refine ⟨hl.trans hp.s0, fun c hc => ?_⟩
  rw [hq c (by rw [hp.s0]; exact hc), at0_replicate, zero_add]

include heF in
theorem energy_computes_fad (half dt : ℝ) :
    Computes M (elasticEnergy Fad.fabs (Fad.const half) (fun k => (P k).lift (penF k)) eF) dt fun k U Z X =>
      energyOf Fad.fabs (Fad.const half) ((P k).lift (penF k)) U Z X := by
  intro k s z x hk hp
  refine (energy_ok (P := (P k).lift (penF k)) Fad.fabs (h.d3 hk) (Fad.const half) (h.wsOk hk hp)
    (by rw [hp.s0]; exact heF k) (by rw [List.length_replicate, hp.s0])).mono ?_
  rintro r ⟨hl, hq⟩
  refine ⟨hl.trans hp.s0, fun c hc => ?_⟩
  rw [hq c (by rw [hp.s0]; exact hc), at0_replicate, zero_add]

include heR heF in
theorem energy_tracks {E : Type} [NormedAddCommGroup E] [NormedSpace ℝ E] (half dt : ℝ) (x : E) :
    CritTracks M (elasticEnergy abs half P eR)
      (elasticEnergy Fad.fabs (Fad.const half) (fun k => (P k).lift (penF k)) eF)
      (fun _ Z X => goodCell M P penF Z X) dt x := by
  refine critTracks_of_form (energy_computes h heR half dt) (energy_computes_fad h heF half dt) ?_
  intro k N L UF ZF XF UR ZR XR hk hU hZ hX hg
  have hd := h.d k hk
  have hnp : M.npc = (P k).d + 1 := by rw [FeModel.npc, hd]
  refine energyOf_tracks (h.d3 hk) (fun l hl => hU l (by rw [hnp, h.ndof, ← hd]; exact hl))
    (fun n hn => hZ n (by omega)) (fun n i hn hi => hX n i (by omega) (by omega)) ?_ ?_ half
  · rw [hd]; exact hg.1
  · rw [hd]; exact hg.2 k hk

end Energy

/-! ## All three gradients -/

section All
variable {M : FeModel} (hM : M.Ok) {evR : ScalarEvaluator ℝ} {evX evU evZ : ScalarEvaluator Fad}
  {good : (Nat → ℝ) → (Nat → ℝ) → (Nat → Nat → ℝ) → Prop} (hg : CritLocal M good) {post : Post}
  {sv sx su sz : Sched} {wv : Nat} {S : List (List ℝ)}
  {z : Fin M.nn → ℝ} {x : Fin (M.nn * M.dim) → ℝ}
include hM hg

/-- A criterion of the form of C51 satisfies the hypothesis of C26: composites of such criteria report
their derivatives. -/
theorem C51_differentiates {u : Fin (M.nn * M.ndof) → ℝ} {dt : ℝ} {j : Nat} (hj : S[j]? = some (List.ofFn u))
    (hS : ∀ u ∈ S, u.length = M.nn * M.ndof) (hX : CritTracks M evR evX good dt x)
    (hU : CritTracks M evR evU good dt u) (hZ : CritTracks M evR evZ good dt z)
    (hgood : ∀ u ∈ S, ∀ c, c < M.nc → good (cellS M u c) (M.cellZ (List.ofFn z) c) (M.cellX (List.ofFn x) c))
    (hsv : sv.Ok M S.length wv) (hsx : sx.Ok M S.length (M.npc * M.dim)) (hsu : su.Ok M 1 (M.npc * M.ndof))
    (hsz : sz.Ok M S.length (M.npc * 1)) (hone : S.length = 1 ∨ post = Post.none)
    (hp : ∀ m v, physicsValue M evR Post.none sv S (List.ofFn z) (List.ofFn x) dt = .ok v →
      m = M.nn * M.dim ∨ m = M.nn * M.ndof ∨ m = M.nn → post.Ok m v) :
    Differentiates (physicsCriterion M evR evX evU evZ post sv sx su sz) (M.nn * M.dim) (M.nn * M.ndof) M.nn S z x j
      u dt :=
  ⟨C51_gradient_x hM hg List.length_ofFn hS hX hgood hsv hsx fun v hv => hp _ v hv (.inl rfl),
    C51_gradient_u_partial hM hg List.length_ofFn List.length_ofFn hj hS hU hgood hsv hsu hone
      fun v hv => hp _ v hv (.inr (.inl rfl)),
    C51_gradient_z hM hg List.length_ofFn hS hZ hgood hsv hsz fun v hv => hp _ v hv (.inr (.inr rfl))⟩

/-- The same for criteria without a state. -/
theorem C51_geo_differentiates (hX : CritTracks M evR evX good 0 x) (hZ : CritTracks M evR evZ good 0 z)
    (hgood : ∀ c, c < M.nc → good (fun _ => 0) (M.cellZ (List.ofFn z) c) (M.cellX (List.ofFn x) c))
    (hsv : sv.Ok M 1 wv) (hsx : sx.Ok M 1 (M.npc * M.dim)) (hsz : sz.Ok M 1 (M.npc * 1))
    (hp : ∀ m v, (geometryCriterion M evR evX evZ Post.none sv sx sz).value (List.ofFn z) (List.ofFn x) = .ok v →
      m = M.nn * M.dim ∨ m = M.nn → post.Ok m v) :
    GeoDifferentiates (geometryCriterion M evR evX evZ post sv sx sz) (M.nn * M.dim) M.nn z x := by
  have hS : ∀ u ∈ [List.replicate (M.nn * M.ndof) (0 : ℝ)], u.length = M.nn * M.ndof := by simp
  have e : ∀ c, cellS M (List.replicate (M.nn * M.ndof) 0) c = fun _ => 0 :=
    fun c => funext fun l => at0_replicate _ _
  refine ⟨C51_gradient_x (evU := evX) (evZ := evZ) (su := sx) (sz := sz) hM hg List.length_ofFn hS hX ?_ hsv hsx
    fun v hv => hp _ v hv (.inl rfl), C51_gradient_z (evX := evX) (evU := evX) (sx := sx) (su := sx)
      hM hg List.length_ofFn hS hZ ?_ hsv hsz fun v hv => hp _ v hv (.inr rfl)⟩ <;>
  · intro u hu c hc
    rw [List.mem_singleton.1 hu, e]
    exact hgood c hc

end All

/-! ## C51 for the elastic energy -/

section
variable {M : FeModel} (hM : M.Ok) {P : Nat → Elastostatic ℝ} (h : MechOk M P) {penF : Nat → Fad → Fad}
  {eR eX eU eZ : Nat → List Nat} (heR : ∀ k, IsSchedule (eR k) (M.size (M.part k)))
  (heX : ∀ k, IsSchedule (eX k) (M.size (M.part k))) (heU : ∀ k, IsSchedule (eU k) (M.size (M.part k)))
  (heZ : ∀ k, IsSchedule (eZ k) (M.size (M.part k))) {sv sx su sz : Sched} {wv : Nat} {S : List (List ℝ)}
  {z : Fin M.nn → ℝ} {x : Fin (M.nn * M.dim) → ℝ} {u : Fin (M.nn * M.ndof) → ℝ} {j : Nat}
include hM h heR heX heU heZ

/-- **C51 for `InternalElasticEnergy`**: any number of steps, with reference strain, any stiffness. -/
theorem C51_energy (half dt : ℝ) (hj : S[j]? = some (List.ofFn u)) (hS : ∀ u ∈ S, u.length = M.nn * M.ndof)
    (hgood : ∀ c, c < M.nc → goodCell M P penF (M.cellZ (List.ofFn z) c) (M.cellX (List.ofFn x) c))
    (hsv : sv.Ok M S.length wv) (hsx : sx.Ok M S.length (M.npc * M.dim)) (hsu : su.Ok M 1 (M.npc * M.ndof))
    (hsz : sz.Ok M S.length (M.npc * 1)) :
    Differentiates (physicsCriterion M (elasticEnergy abs half P eR)
      (elasticEnergy Fad.fabs (Fad.const half) (fun k => (P k).lift (penF k)) eX)
      (elasticEnergy Fad.fabs (Fad.const half) (fun k => (P k).lift (penF k)) eU)
      (elasticEnergy Fad.fabs (Fad.const half) (fun k => (P k).lift (penF k)) eZ) Post.none sv sx su sz)
      (M.nn * M.dim) (M.nn * M.ndof) M.nn S z x j u dt :=
  C51_differentiates hM (mechLocal h) hj hS (energy_tracks h heR heX half dt _) (energy_tracks h heR heU half dt _)
    (energy_tracks h heR heZ half dt _) (fun _ _ c hc => hgood c hc) hsv hsx hsu hsz (.inr rfl)
    fun m v _ _ => Post.none_ok m v

end

/-! ## Volume -/

/-- What the volume needs from a cell. -/
def goodVolume (M : FeModel) (pen : Nat → ℝ → ℝ) (penF : Nat → Fad → Fad) (_ Z : Nat → ℝ) (X : Nat → Nat → ℝ) : Prop :=
  detForm M.dim X ≠ 0 ∧ ∀ k, k < M.domains.length → PenOk (penF k) (pen k) (meanDensity (M.dim + 1) Z)

section Volume
variable {M : FeModel} (hdim : M.dim = 1 ∨ M.dim = 2 ∨ M.dim = 3) {pen : Nat → ℝ → ℝ} {penF : Nat → Fad → Fad}
  {weight : Nat → ℝ}
include hdim

theorem goodVolume_local : CritLocal M (goodVolume M pen penF) := by
  intro U U' Z Z' X X' _ hZ hX hg
  refine ⟨?_, ?_⟩
  · rw [← detForm_congr hdim hX]
    exact hg.1
  · rw [← meanDensity_congr (npc := M.dim + 1) hZ]
    exact hg.2

theorem volume_computes {R : Type} [CommRing R] [Div R] (fabs : R → R) {weight : Nat → R} {pen : Nat → R → R}
    {eR : Nat → List Nat} (heR : ∀ k, IsSchedule (eR k) (M.size (M.part k))) (dt : ℝ) :
    Computes M (volumeEval fabs M.dim weight pen eR) dt fun k _ Z X => volumeOf fabs M.dim (weight k) (pen k) Z X := by
  intro k s z x hk hp
  have a0 := hp.z0
  have a1 := hp.z1
  have a2 := hp.x0
  have a3 := hp.x1
  have a4 := hp.x2
  have hnp : M.npc = M.dim + 1 := rfl
  exact volume_ok fabs hdim (weight k) (pen k) (nc := M.size (M.part k)) (by omega) (by omega) (by omega) (by omega)
    (by omega) (heR k) (by rw [List.length_replicate])

theorem volume_tracks {E : Type} [NormedAddCommGroup E] [NormedSpace ℝ E] {eR eF : Nat → List Nat}
    (heR : ∀ k, IsSchedule (eR k) (M.size (M.part k))) (heF : ∀ k, IsSchedule (eF k) (M.size (M.part k)))
    (dt : ℝ) (x : E) :
    CritTracks M (volumeEval abs M.dim weight pen eR)
      (volumeEval Fad.fabs M.dim (fun k => Fad.const (weight k)) penF eF) (goodVolume M pen penF) dt x := by
  refine critTracks_of_form (volume_computes hdim abs heR dt) (volume_computes hdim Fad.fabs heF dt) ?_
  intro k N L UF ZF XF UR ZR XR hk _ hZ hX hg
  exact (((detForm_tracks hdim hX).fabs hg.1).mul (Tracks.const _)).mul
    ((hg.2 k hk).tracks (meanDensity_tracks (Nat.succ_ne_zero _) hZ))

variable (hM : M.Ok) {eR eX eU eZ : Nat → List Nat} (heR : ∀ k, IsSchedule (eR k) (M.size (M.part k)))
  (heX : ∀ k, IsSchedule (eX k) (M.size (M.part k))) (heU : ∀ k, IsSchedule (eU k) (M.size (M.part k)))
  (heZ : ∀ k, IsSchedule (eZ k) (M.size (M.part k))) {sv sx su sz : Sched} {wv : Nat} {S : List (List ℝ)}
  {z : Fin M.nn → ℝ} {x : Fin (M.nn * M.dim) → ℝ} {u : Fin (M.nn * M.ndof) → ℝ} {j : Nat}
include hM heR heX heZ

/-- **C51 for the volume** as geometric criterion. -/
theorem C51_volume_geo (hgood : ∀ c, c < M.nc →
      goodVolume M pen penF (fun _ => 0) (M.cellZ (List.ofFn z) c) (M.cellX (List.ofFn x) c))
    (hsv : sv.Ok M 1 wv) (hsx : sx.Ok M 1 (M.npc * M.dim)) (hsz : sz.Ok M 1 (M.npc * 1)) :
    GeoDifferentiates (geometryCriterion M (volumeEval abs M.dim weight pen eR)
      (volumeEval Fad.fabs M.dim (fun k => Fad.const (weight k)) penF eX)
      (volumeEval Fad.fabs M.dim (fun k => Fad.const (weight k)) penF eZ) Post.none sv sx sz)
      (M.nn * M.dim) M.nn z x :=
  C51_geo_differentiates hM (goodVolume_local hdim) (volume_tracks hdim heR heX 0 _) (volume_tracks hdim heR heZ 0 _)
    hgood hsv hsx hsz fun m v _ _ => Post.none_ok m v

include heU in
/-- **C51 for the volume** as criterion with a state. -/
theorem C51_volume (dt : ℝ) (hj : S[j]? = some (List.ofFn u)) (hS : ∀ u ∈ S, u.length = M.nn * M.ndof)
    (hgood : ∀ c, c < M.nc →
      goodVolume M pen penF (fun _ => 0) (M.cellZ (List.ofFn z) c) (M.cellX (List.ofFn x) c))
    (hsv : sv.Ok M S.length wv) (hsx : sx.Ok M S.length (M.npc * M.dim)) (hsu : su.Ok M 1 (M.npc * M.ndof))
    (hsz : sz.Ok M S.length (M.npc * 1)) :
    Differentiates (physicsCriterion M (volumeEval abs M.dim weight pen eR)
      (volumeEval Fad.fabs M.dim (fun k => Fad.const (weight k)) penF eX)
      (volumeEval Fad.fabs M.dim (fun k => Fad.const (weight k)) penF eU)
      (volumeEval Fad.fabs M.dim (fun k => Fad.const (weight k)) penF eZ) Post.none sv sx su sz)
      (M.nn * M.dim) (M.nn * M.ndof) M.nn S z x j u dt :=
  C51_differentiates hM (goodVolume_local hdim) hj hS (volume_tracks hdim heR heX dt _)
    (volume_tracks hdim heR heU dt _) (volume_tracks hdim heR heZ dt _) (fun _ _ c hc => hgood c hc) hsv hsx hsu hsz
    (.inr rfl) fun m v _ _ => Post.none_ok m v

end Volume

/-! ## Norms of the stress -/

/-- `sqrt` of the automatic differentiation library, for a positive value. -/
noncomputable def sqrtFad (a : Fad) : Fad := .mk (Real.sqrt a.val) fun k => 1 / (2 * Real.sqrt a.val) * a.dx k

section Norm
variable {E : Type} [NormedAddCommGroup E] [NormedSpace ℝ E] {L : Nat → E →L[ℝ] ℝ} {N : Nat} {x : E}

theorem rpow_tracks {a : Fad} {f : E → ℝ} (ha : Tracks L N x a f) {p : ℝ} (hp : f x ≠ 0 ∨ 1 ≤ p) :
    Tracks L N x (a.rpow p) fun y => f y ^ p :=
  ha.comp (Real.hasDerivAt_rpow_const hp) (by rw [← ha.val]; rfl) fun k => by rw [← ha.val]; rfl

theorem sqrt_tracks {a : Fad} {f : E → ℝ} (ha : Tracks L N x a f) (hp : f x ≠ 0) :
    Tracks L N x (sqrtFad a) fun y => Real.sqrt (f y) :=
  ha.comp (Real.hasDerivAt_sqrt hp) (by rw [← ha.val]; rfl) fun k => by rw [← ha.val]; rfl

/-- A norm in numbers and the same norm in automatic differentiation values; `good` is what it needs
from the terms of the stress. -/
def NormTracks (terms : Nat) (formR : (Nat → ℝ) → ℝ → ℝ) (formF : (Nat → Fad) → Fad → Fad)
    (good : (Nat → ℝ) → Prop) : Prop :=
  ∀ {E : Type} [NormedAddCommGroup E] [NormedSpace ℝ E] {L : Nat → E →L[ℝ] ℝ} {N : Nat} {x : E}
    {σF : Nat → Fad} {σR : E → Nat → ℝ} {vF : Fad} {vR : E → ℝ},
    (∀ t, t < terms → Tracks L N x (σF t) fun y => σR y t) → Tracks L N x vF vR → good (σR x) →
    Tracks L N x (formF σF vF) fun y => formR (σR y) (vR y)

theorem tensor_tracks (terms : Nat) (p : Int) :
    NormTracks terms (tensorForm (fun a q => a ^ q) terms p) (tensorForm Fad.rpow terms p)
      fun σ => (∃ t, t < terms ∧ σ t ≠ 0) ∨ 2 ≤ p := by
  intro E _ _ L N x σF σR vF vR hσ hv hg
  refine (rpow_tracks (Tracks.sum _ fun t ht => (hσ t (mem_range.1 ht)).mul (hσ t (mem_range.1 ht))) ?_).mul hv
  rcases hg with ⟨t, ht, h0⟩ | hp
  · left
    refine ne_of_gt (sum_pos' (fun i _ => mul_self_nonneg _) ⟨t, mem_range.2 ht, ?_⟩)
    exact mul_self_pos.2 h0
  · right
    have : (2 : ℝ) ≤ p := by exact_mod_cast hp
    linarith

theorem weighted_tracks {spw ref : ℝ} (hr : ref ≠ 0) (terms : Nat) (p : Int) :
    NormTracks terms (weightedForm (fun a q => a ^ q) Real.sqrt spw ref terms p)
      (weightedForm Fad.rpow sqrtFad (Fad.const spw) (Fad.const ref) terms p)
      fun σ => ∃ t, t < terms ∧ σ t ≠ 0 ∧ 0 < spw := by
  rintro E _ _ L N x σF σR vF vR hσ hv ⟨t, ht, h0, hpos⟩
  have hsum : 0 < ∑ i ∈ range terms, σR x i * σR x i :=
    sum_pos' (fun i _ => mul_self_nonneg _) ⟨t, mem_range.2 ht, mul_self_pos.2 h0⟩
  have hp := mul_pos hpos hsum
  refine (rpow_tracks ((sqrt_tracks ((Tracks.const spw).mul (Tracks.sum _ fun t ht =>
    (hσ t (mem_range.1 ht)).mul (hσ t (mem_range.1 ht)))) hp.ne').div (Tracks.const ref) hr) (.inl ?_)).mul hv
  exact div_ne_zero (Real.sqrt_pos.2 hp).ne' hr

end Norm

/-- What the norms of the stress need from a cell. -/
def goodNorm (M : FeModel) (P : Nat → Elastostatic ℝ) (penF : Nat → Fad → Fad) (goodN : Nat → (Nat → ℝ) → Prop)
    (U Z : Nat → ℝ) (X : Nat → Nat → ℝ) : Prop :=
  goodCell M P penF Z X ∧ ∀ k, k < M.domains.length → goodN k (weightedStress (P k) U Z X)

theorem weightedStress_congr {K : Type} [CommRing K] [Div K] {P : Elastostatic K} (hd : P.d = 1 ∨ P.d = 2 ∨ P.d = 3)
    {U U' Z Z' : Nat → K} {X X' : Nat → Nat → K} (hU : ∀ l, l < (P.d + 1) * P.d → U l = U' l)
    (hZ : ∀ a, a < P.d + 1 → Z a = Z' a) (hX : ∀ a k, a < P.d + 1 → k < P.d → X a k = X' a k) :
    weightedStress P U Z X = weightedStress P U' Z' X' := by
  funext t
  unfold weightedStress Elastostatic.solidStress
  rw [meanDensity_congr hZ]
  simp only [strainForm_congr hd hU hX]

section Stress
variable {M : FeModel} {P : Nat → Elastostatic ℝ} (h : MechOk M P) {penF : Nat → Fad → Fad}
  {goodN : Nat → (Nat → ℝ) → Prop}
include h

theorem goodNorm_local : CritLocal M (goodNorm M P penF goodN) := by
  intro U U' Z Z' X X' hU hZ hX hg
  refine ⟨mechLocal h U U' Z Z' X X' hU hZ hX hg.1, fun k hk => ?_⟩
  have hd := h.d k hk
  have hnp : M.npc = (P k).d + 1 := by rw [FeModel.npc, hd]
  rw [← weightedStress_congr (h.d3 hk) (fun l hl => hU l (by rw [hnp, h.ndof, ← hd]; exact hl))
    (fun a ha => hZ a (by omega)) (fun a i ha hi => hX a i (by omega) (by omega))]
  exact hg.2 k hk

variable {exponent : ℝ} {normR : Nat → Nat → Int → Nat → List ℝ → V2 ℝ → List ℝ → Res (List ℝ)}
  {normF : Nat → Nat → Int → Nat → List Fad → V2 Fad → List Fad → Res (List Fad)}
  {formR : Nat → (Nat → ℝ) → ℝ → ℝ} {formF : Nat → (Nat → Fad) → Fad → Fad}

omit h in
/-- `StressPNorm` computes the norm of the weighted stress of each cell. -/
theorem stressPNorm_computes {R : Type} [CommRing R] [Div R] (fabs : R → R) {P : Nat → Elastostatic R}
    (hd3 : ∀ k, k < M.domains.length → (P k).d = 1 ∨ (P k).d = 2 ∨ (P k).d = 3)
    (hws : ∀ k (s z : V2 R) (x : V3 R), k < M.domains.length → PartOk M k s z x →
      WsOk (P k).d (P k).d s.d0 s z x)
    {norm : Nat → Nat → Int → Nat → List R → V2 R → List R → Res (List R)} {form : Nat → (Nat → R) → R → R}
    (hn : ∀ k, NormForm (norm k) (numVoigt (P k).d) (toOrdinal exponent) (form k))
    (hform : ∀ k σ σ' v, (∀ t, t < numVoigt (P k).d → σ t = σ' t) → form k σ v = form k σ' v)
    {e : Nat → Nat → List Nat} (he : ∀ k j, IsSchedule (e k j) (M.size (M.part k))) (dt : ℝ) :
    Computes M (stressPNorm fabs norm exponent P e) dt fun k U Z X =>
      form k (weightedStress (P k) U Z X) ((P k).volForm fabs X) := by
  intro k s z x hk hp
  have := stressPNorm_ok fabs (hd3 k hk) (hn k) (hform k) (hws k s z x hk hp) (o1 := e k 0) (o2 := e k 1)
    (by rw [hp.s0]; exact he k 0) (by rw [hp.s0]; exact he k 1) (result := List.replicate (M.size (M.part k)) 0)
    (by rw [List.length_replicate, hp.s0])
  rw [← hp.s0] at this ⊢
  exact this

theorem stressPNorm_tracks {E : Type} [NormedAddCommGroup E] [NormedSpace ℝ E]
    (hnR : ∀ k, NormForm (normR k) (numVoigt (P k).d) (toOrdinal exponent) (formR k))
    (hnF : ∀ k, NormForm (normF k) (numVoigt (P k).d) (toOrdinal exponent) (formF k))
    (hfR : ∀ k σ σ' v, (∀ t, t < numVoigt (P k).d → σ t = σ' t) → formR k σ v = formR k σ' v)
    (hfF : ∀ k σ σ' v, (∀ t, t < numVoigt (P k).d → σ t = σ' t) → formF k σ v = formF k σ' v)
    (hT : ∀ k, NormTracks (numVoigt (P k).d) (formR k) (formF k) (goodN k))
    {eR eF : Nat → Nat → List Nat} (heR : ∀ k j, IsSchedule (eR k j) (M.size (M.part k)))
    (heF : ∀ k j, IsSchedule (eF k j) (M.size (M.part k))) (dt : ℝ) (x : E) :
    CritTracks M (stressPNorm abs normR exponent P eR)
      (stressPNorm Fad.fabs normF exponent (fun k => (P k).lift (penF k)) eF) (goodNorm M P penF goodN) dt x := by
  refine critTracks_of_form (stressPNorm_computes abs (fun k hk => h.d3 hk)
    (fun k s z x hk hp => h.wsOk hk hp) hnR hfR heR dt) (stressPNorm_computes Fad.fabs (fun k hk => h.d3 hk)
    (P := fun k => (P k).lift (penF k)) (fun k s z x hk hp => h.wsOk hk hp) hnF hfF heF dt) ?_
  intro k N L UF ZF XF UR ZR XR hk hU hZ hX hg
  have hd := h.d k hk
  have hnp : M.npc = (P k).d + 1 := by rw [FeModel.npc, hd]
  have hX' : ∀ n i, n < (P k).d + 1 → i < (P k).d → Tracks L N x (XF n i) fun y => XR y n i :=
    fun n i hn hi => hX n i (by omega) (by omega)
  have hdet : detForm (P k).d (XR x) ≠ 0 := by rw [hd]; exact hg.1.1
  refine hT k (fun t _ => weightedStress_tracks (h.d3 hk)
    (fun l hl => hU l (by rw [hnp, h.ndof, ← hd]; exact hl)) (fun n hn => hZ n (by omega)) hX' hdet
    (by rw [hd]; exact hg.1.2 k hk) t) ?_ (hg.2 k hk)
  exact ((detForm_tracks (h.d3 hk) hX').fabs hdet).mul (Tracks.const _)

end Stress

/-- `postEvaluate` of the norms: power with the reciprocal of the exponent, with its derivative. -/
theorem normPost_ok {exponent : ℝ} (he : exponent ≠ 0) {order : Nat → List Nat} {m : Nat}
    (ho : IsSchedule (order m) m) {v : ℝ} (hv : v ≠ 0) : (normPost exponent order).Ok m v := by
  refine ⟨1 / exponent * v ^ (1 / exponent - 1), Real.hasDerivAt_rpow_const (.inl hv), fun g hg => ?_⟩
  have := parFor_map (order := order g.length) (body := fun q (g : List ℝ) => do
    let a ← rd g q
    wr g q (a * (v ^ ((1 - exponent) / exponent) / exponent))) (by rw [hg]; exact ho)
    (fun _ a => a * (v ^ ((1 - exponent) / exponent) / exponent)) (y0 := g) (by
      intro q y hq hy
      rw [rd_at0 (by omega), Res.ok_bind]
      exact wr_eq (by omega)) hg
  obtain ⟨g', e, hl, hq⟩ := this
  refine ⟨g', e, hl, fun q hq' => ?_⟩
  rw [hq q hq', show (1 - exponent) / exponent = 1 / exponent - 1 by field_simp]
  ring

section StressAll
variable {M : FeModel} (hM : M.Ok) {P : Nat → Elastostatic ℝ} (h : MechOk M P) {penF : Nat → Fad → Fad}
  {eR eX eU eZ : Nat → Nat → List Nat} (heR : ∀ k j, IsSchedule (eR k j) (M.size (M.part k)))
  (heX : ∀ k j, IsSchedule (eX k j) (M.size (M.part k))) (heU : ∀ k j, IsSchedule (eU k j) (M.size (M.part k)))
  (heZ : ∀ k j, IsSchedule (eZ k j) (M.size (M.part k))) {sv sx su sz : Sched} {wv : Nat}
  {z : Fin M.nn → ℝ} {x : Fin (M.nn * M.dim) → ℝ} {u : Fin (M.nn * M.ndof) → ℝ} {exponent : ℝ}
  (he : exponent ≠ 0) {order : Nat → List Nat} (ho : ∀ m, IsSchedule (order m) m)
  (hsv : sv.Ok M 1 wv) (hsx : sx.Ok M 1 (M.npc * M.dim)) (hsu : su.Ok M 1 (M.npc * M.ndof))
  (hsz : sz.Ok M 1 (M.npc * 1))
include hM h heR heX heU heZ he ho hsv hsx hsu hsz

/-- **C51 for `StressPNorm` with the plain norm**: one state, any exponent, wherever the sum is not zero
and the stress is not zero in any cell or the exponent is at least two. -/
theorem C51_stressPNorm {dt : ℝ}
    (hgood : ∀ c, c < M.nc → goodNorm M P penF (fun k σ => (∃ t, t < numVoigt (P k).d ∧ σ t ≠ 0) ∨ 2 ≤ toOrdinal exponent)
      (cellS M (List.ofFn u) c) (M.cellZ (List.ofFn z) c) (M.cellX (List.ofFn x) c))
    (hv0 : physicsValue M (stressPNorm abs (fun _ => tensorPNormFunctor fun a q => a ^ q) exponent P eR) Post.none sv
      [List.ofFn u] (List.ofFn z) (List.ofFn x) dt ≠ .ok 0) :
    Differentiates (physicsCriterion M
      (stressPNorm abs (fun _ => tensorPNormFunctor fun a q => a ^ q) exponent P eR)
      (stressPNorm Fad.fabs (fun _ => tensorPNormFunctor Fad.rpow) exponent (fun k => (P k).lift (penF k)) eX)
      (stressPNorm Fad.fabs (fun _ => tensorPNormFunctor Fad.rpow) exponent (fun k => (P k).lift (penF k)) eU)
      (stressPNorm Fad.fabs (fun _ => tensorPNormFunctor Fad.rpow) exponent (fun k => (P k).lift (penF k)) eZ)
      (normPost exponent order) sv sx su sz)
      (M.nn * M.dim) (M.nn * M.ndof) M.nn [List.ofFn u] z x 0 u dt := by
  have hT : ∀ {E : Type} [NormedAddCommGroup E] [NormedSpace ℝ E] {eF : Nat → Nat → List Nat}
      (_ : ∀ k j, IsSchedule (eF k j) (M.size (M.part k))) (x : E), CritTracks M
      (stressPNorm abs (fun _ => tensorPNormFunctor fun a q => a ^ q) exponent P eR)
      (stressPNorm Fad.fabs (fun _ => tensorPNormFunctor Fad.rpow) exponent (fun k => (P k).lift (penF k)) eF)
      (goodNorm M P penF fun k σ => (∃ t, t < numVoigt (P k).d ∧ σ t ≠ 0) ∨ 2 ≤ toOrdinal exponent) dt x := by
    intro E _ _ eF heF x
    refine stressPNorm_tracks h (fun k => tensorPNorm_form _ _ _) (fun k => tensorPNorm_form _ _ _) ?_ ?_
      (fun k => tensor_tracks _ _) heR heF dt x <;>
    · intro k σ σ' v hσ
      unfold tensorForm
      rw [sum_congr rfl fun t ht => by rw [hσ t (mem_range.1 ht)]]
  refine C51_differentiates hM (goodNorm_local h) rfl (by simp) (hT heX _) (hT heU _) (hT heZ _) ?_ hsv hsx hsu hsz
    (.inl rfl) ?_
  · intro u' hu' c hc
    rw [List.mem_singleton.1 hu']
    exact hgood c hc
  · intro m v hv _
    exact normPost_ok he (ho m) (by rintro rfl; exact hv0 hv)

/-- **C51 for `StressPNorm` with the weighted norm.** -/
theorem C51_weightedNorm {dt spw ref : ℝ} (hr : ref ≠ 0)
    (hgood : ∀ c, c < M.nc → goodNorm M P penF (fun k σ => ∃ t, t < numVoigt (P k).d ∧ σ t ≠ 0 ∧ 0 < spw)
      (cellS M (List.ofFn u) c) (M.cellZ (List.ofFn z) c) (M.cellX (List.ofFn x) c))
    (hv0 : physicsValue M (stressPNorm abs (fun _ => weightedNormFunctor (fun a q => a ^ q) Real.sqrt spw ref)
      exponent P eR) Post.none sv [List.ofFn u] (List.ofFn z) (List.ofFn x) dt ≠ .ok 0) :
    Differentiates (physicsCriterion M
      (stressPNorm abs (fun _ => weightedNormFunctor (fun a q => a ^ q) Real.sqrt spw ref) exponent P eR)
      (stressPNorm Fad.fabs (fun _ => weightedNormFunctor Fad.rpow sqrtFad (Fad.const spw) (Fad.const ref)) exponent
        (fun k => (P k).lift (penF k)) eX)
      (stressPNorm Fad.fabs (fun _ => weightedNormFunctor Fad.rpow sqrtFad (Fad.const spw) (Fad.const ref)) exponent
        (fun k => (P k).lift (penF k)) eU)
      (stressPNorm Fad.fabs (fun _ => weightedNormFunctor Fad.rpow sqrtFad (Fad.const spw) (Fad.const ref)) exponent
        (fun k => (P k).lift (penF k)) eZ)
      (normPost exponent order) sv sx su sz)
      (M.nn * M.dim) (M.nn * M.ndof) M.nn [List.ofFn u] z x 0 u dt := by
  have hT : ∀ {E : Type} [NormedAddCommGroup E] [NormedSpace ℝ E] {eF : Nat → Nat → List Nat}
      (_ : ∀ k j, IsSchedule (eF k j) (M.size (M.part k))) (x : E), CritTracks M
      (stressPNorm abs (fun _ => weightedNormFunctor (fun a q => a ^ q) Real.sqrt spw ref) exponent P eR)
      (stressPNorm Fad.fabs (fun _ => weightedNormFunctor Fad.rpow sqrtFad (Fad.const spw) (Fad.const ref)) exponent
        (fun k => (P k).lift (penF k)) eF)
      (goodNorm M P penF fun k σ => ∃ t, t < numVoigt (P k).d ∧ σ t ≠ 0 ∧ 0 < spw) dt x := by
    intro E _ _ eF heF x
    refine stressPNorm_tracks h (fun k => weightedNorm_form _ _ _ _ _ _) (fun k => weightedNorm_form _ _ _ _ _ _) ?_ ?_
      (fun k => weighted_tracks hr _ _) heR heF dt x <;>
    · intro k σ σ' v hσ
      unfold weightedForm
      rw [sum_congr rfl fun t ht => by rw [hσ t (mem_range.1 ht)]]
  refine C51_differentiates hM (goodNorm_local h) rfl (by simp) (hT heX _) (hT heU _) (hT heZ _) ?_ hsv hsx hsu hsz
    (.inl rfl) ?_
  · intro u' hu' c hc
    rw [List.mem_singleton.1 hu']
    exact hgood c hc
  · intro m v hv _
    exact normPost_ok he (ho m) (by rintro rfl; exact hv0 hv)

end StressAll

end Plato.Crit
