import Verif.TmCrit.Cells
import Verif.Tm.Props
import Verif.Tm.Output
import Verif.Crit.NormProps
import Verif.Trans.Shipped

/-!
# C90: internal thermoelastic energy
-/

namespace Plato.TmCrit
open Finset Plato Plato.Mech Plato.Thermal Plato.Dyn Plato.Tm Plato.Crit Plato.Trans

section Fit
variable {M : FeModel} {P : Nat → Tm ℝ} (h : TmOk M P)
include h

theorem d3 {k : Nat} (hk : k < M.domains.length) : (P k).d = 1 ∨ (P k).d = 2 ∨ (P k).d = 3 := by
  rw [h.d k hk]; exact .inr h.dim

theorem npc_eq {k : Nat} (hk : k < M.domains.length) : M.npc = (P k).d + 1 := by rw [FeModel.npc, h.d k hk]

theorem dofs_eq {k : Nat} (hk : k < M.domains.length) : M.npc * M.ndof = ((P k).d + 1) * ((P k).d + 1) := by
  rw [h.ndof, npc_eq h hk, h.d k hk]

theorem wsOk {k : Nat} (hk : k < M.domains.length) {R : Type} {s z : V2 R} {x : V3 R} (hh : PartOk M k s z x) :
    WsOk (P k).d ((P k).d + 1) s.d0 s z x := by
  refine ⟨le_rfl, ?_, by rw [hh.s0, hh.z0], ?_, by rw [hh.s0, hh.x0], hh.x1.trans (npc_eq h hk), by rw [hh.x2, h.d k hk]⟩
  · rw [hh.s1, dofs_eq h hk]
  · rw [hh.z1, npc_eq h hk]

theorem good_local {penF : Nat → Fad → Fad} : CritLocal M fun _ Z X => tmGood M P penF Z X :=
  fun _ _ Z Z' X X' _ hZ hX hg => tmGood_local h Z Z' X X' hZ hX hg

theorem energy_local : FormLocal M fun k U Z X => energyForm abs (P k) U Z X := by
  intro k U U' Z Z' X X' hk hU hZ hX
  have hd := h.d k hk
  have hnp := npc_eq h hk
  exact energyForm_congr (d3 h hk) (fun l hl => hU l (by rw [dofs_eq h hk]; exact hl))
    (fun a ha => hZ a (by omega)) fun a i ha hi => hX a i (by omega) (by omega)

variable {penF : Nat → Fad → Fad} {eR eF : Nat → List Nat} (heR : ∀ k, IsSchedule (eR k) (M.size (M.part k)))
  (heF : ∀ k, IsSchedule (eF k) (M.size (M.part k)))

include heR in
theorem energy_computes (dt : ℝ) :
    Computes M (thermoelasticEnergy abs P eR) dt fun k U Z X => energyForm abs (P k) U Z X := by
  intro k s z x hk hp
  have hd := h.d k hk
  refine (energy_ok abs (by rw [hd]; exact h.dim) (by rw [hd]; exact h.basis k hk) (by rw [hd]; exact h.law k hk)
    (wsOk h hk hp) (by rw [hp.s0]; exact heR k) (by rw [List.length_replicate, hp.s0])).mono ?_
  rintro r ⟨hl, hq⟩
  refine ⟨hl.trans hp.s0, fun c hc => ?_⟩
  rw [hq c (by rw [hp.s0]; exact hc), at0_replicate, zero_add]

include heF in
theorem energy_computes_fad (dt : ℝ) :
    Computes M (thermoelasticEnergy Fad.fabs (fun k => (P k).lift (penF k)) eF) dt
      fun k U Z X => energyForm Fad.fabs ((P k).lift (penF k)) U Z X := by
  intro k s z x hk hp
  have hd := h.d k hk
  refine (energy_ok (P := (P k).lift (penF k)) Fad.fabs (by show (P k).d = 2 ∨ (P k).d = 3; rw [hd]; exact h.dim)
    (by simp only [Tm.lift, List.length_map]; rw [hd]; exact h.basis k hk)
    (by show ((P k).lift (penF k)).law.Ok (P k).d; rw [hd]; exact lift_law h hk)
    (wsOk h hk hp) (by rw [hp.s0]; exact heF k) (by rw [List.length_replicate, hp.s0])).mono ?_
  rintro r ⟨hl, hq⟩
  refine ⟨hl.trans hp.s0, fun c hc => ?_⟩
  rw [hq c (by rw [hp.s0]; exact hc), at0_replicate, zero_add]

include heR heF in
theorem energy_tracks {E : Type} [NormedAddCommGroup E] [NormedSpace ℝ E] (dt : ℝ) (x : E) :
    CritTracks M (thermoelasticEnergy abs P eR) (thermoelasticEnergy Fad.fabs (fun k => (P k).lift (penF k)) eF)
      (fun _ Z X => tmGood M P penF Z X) dt x := by
  refine critTracks_of_form (energy_computes h heR dt) (energy_computes_fad h heF dt) ?_
  intro k N L UF ZF XF UR ZR XR hk hU hZ hX hg
  have hd := h.d k hk
  have hnp := npc_eq h hk
  refine energyForm_tracks (d3 h hk) (fun l hl => hU l (by rw [dofs_eq h hk]; exact hl))
    (fun n hn => hZ n (by omega)) (fun n i hn hi => hX n i (by omega) (by omega)) ?_ ?_
  · rw [hd]; exact hg.1
  · rw [hd]; exact hg.2 k hk

end Fit

/-! ## Values -/

section Value
variable {M : FeModel} (hM : M.Ok) {P : Nat → Tm ℝ} (h : TmOk M P)
  {eR : Nat → List Nat} (heR : ∀ k, IsSchedule (eR k) (M.size (M.part k)))
  {sv : Sched} {wv : Nat} {S : List (List ℝ)} {z x : List ℝ} (hS : ∀ u ∈ S, u.length = M.nn * M.ndof)
  (hz : z.length = M.nn) (hx : x.length = M.nn * M.dim) (hsv : sv.Ok M S.length wv)
include hM h heR hS hz hx hsv

theorem energy_value (dt : ℝ) :
    physicsValue M (thermoelasticEnergy abs P eR) Post.none sv S z x dt =
      .ok (∑ t ∈ range S.length, thermoForm TmLaw.normalStrain M P z x (at0 (S[t]?.getD [])) (at0 (S[t]?.getD []))) := by
  rw [value_of_form hM (energy_computes h heR dt) (energy_local h) hS hz hx hsv]
  congr 1
  unfold Post.none
  dsimp only
  rw [sum_comm]
  refine sum_congr rfl fun t _ => ?_
  unfold thermoForm meshForm
  refine sum_congr rfl fun k hk => sum_congr rfl fun c _ => ?_
  rw [energyForm_eq]
  rfl

/-- **C90, value**: for materials without shear expansion the internal thermoelastic energy is the sum over the steps
of the work of the thermoelastic stress on the strain and of the heat flux on the temperature gradient. -/
theorem C90_value_partial (h0 : ∀ k T i j, k < M.domains.length → i < M.dim → j < M.dim → i ≠ j →
      (P k).law.expand.at (P k).law.nonlinear T i j = 0) (dt : ℝ) :
    physicsValue M (thermoelasticEnergy abs P eR) Post.none sv S z x dt =
      .ok (∑ t ∈ range S.length, thermoForm expansion M P z x (at0 (S[t]?.getD [])) (at0 (S[t]?.getD []))) := by
  rw [energy_value hM h heR hS hz hx hsv]
  congr 1
  exact sum_congr rfl fun t _ => thermoForm_diag h h0 _ _

/-- **C90, sign**: without thermal expansion, with stiffness and conductivity that are positive semidefinite at all
temperatures, it is not negative. -/
theorem C90_nonneg_partial (h0 : ∀ k T i j, k < M.domains.length → i < M.dim → j < M.dim →
      (P k).law.expand.at (P k).law.nonlinear T i j = 0)
    (hw : ∀ k, k < M.domains.length → 0 ≤ (P k).cubWeight)
    (hpen : ∀ k c, k < M.domains.length → c < M.size (M.part k) →
      0 ≤ (P k).pen (meanDensity ((P k).d + 1) (M.cellZ z (gcell (M.part k) c))))
    (hstiff : ∀ k T (e : Nat → ℝ), k < M.domains.length →
      0 ≤ ∑ t ∈ range (numVoigt (P k).d), ∑ s ∈ range (numVoigt (P k).d),
        e t * (P k).law.stiff.at (P k).law.nonlinear T t s * e s)
    (hcond : ∀ k T (g : Nat → ℝ), k < M.domains.length →
      0 ≤ ∑ i ∈ range (P k).d, ∑ j ∈ range (P k).d, g i * (P k).law.cond.at (P k).law.nonlinear T i j * g j) (dt : ℝ) :
    (physicsValue M (thermoelasticEnergy abs P eR) Post.none sv S z x dt).Sat fun v => 0 ≤ v := by
  refine ⟨_, energy_value hM h heR hS hz hx hsv dt, sum_nonneg fun t _ => ?_⟩
  generalize S[t]?.getD [] = u
  unfold thermoForm meshForm
  refine sum_nonneg fun k hk => sum_nonneg fun c hc => ?_
  have hk' := mem_range.1 hk
  have hd := h.d k hk'
  unfold cellThermo
  refine mul_nonneg (mul_nonneg (mul_nonneg (abs_nonneg _) (hw k hk')) (hpen k c hk' (mem_range.1 hc)))
    (add_nonneg ?_ ?_)
  · refine le_of_le_of_eq (hstiff k ((P k).tempAt (dofs M (at0 u) (gcell (M.part k) c)))
      (fun t => (P k).strainForm (dofs M (at0 u) (gcell (M.part k) c)) (M.cellX x (gcell (M.part k) c)) t) hk') ?_
    refine sum_congr rfl fun t _ => sum_congr rfl fun s hs => ?_
    have : (P k).law.normalStrain (P k).d ((P k).tempAt (dofs M (at0 u) (gcell (M.part k) c))) s = 0 := by
      unfold TmLaw.normalStrain
      split_ifs with hsd
      · rw [h0 k _ _ _ hk' (by omega) (by omega)]; ring
      · rfl
    rw [this]
    ring
  · refine le_of_le_of_eq (hcond k ((P k).tempAt (dofs M (at0 u) (gcell (M.part k) c)))
      (fun j => (P k).law.scale * (P k).gradT (dofs M (at0 u) (gcell (M.part k) c)) (M.cellX x (gcell (M.part k) c)) j)
        hk') ?_
    exact sum_congr rfl fun i _ => sum_congr rfl fun j _ => by ring

end Value

/-! ## The energy is not that of the elastic strain -/

section Expansion
variable {M : FeModel} (hM : M.Ok) {P : Nat → Tm ℝ} (h : TmOk M P) {z x : List ℝ}
  (hdet : ∀ c, c < M.nc → detForm M.dim (M.cellX x c) ≠ 0)
include hM h hdet

/-- Energy at a uniform temperature of displacements that are the fraction `a` of the free expansion, for isotropic
expansion: `a (a - 1)` times the work of the thermal strain on itself. -/
theorem thermoForm_fraction (hbasis : ∀ k, k < M.domains.length → ∑ n ∈ range (M.dim + 1), at0 (P k).basis n = 1)
    {T θ a : ℝ} (h0 : ∀ k i j, k < M.domains.length → i < M.dim → j < M.dim →
      (P k).law.scale * (P k).law.expand.at (P k).law.nonlinear T i j * (T - (P k).law.tref) = if i = j then θ else 0)
    {u : Nat → ℝ} (hT : ∀ n, n < M.nn → u (M.ndof * n + M.dim) = T)
    (hU : ∀ n i, n < M.nn → i < M.dim → u (M.ndof * n + i) = a * θ * at0 x (M.dim * n + i)) :
    thermoForm TmLaw.normalStrain M P z x u u = a * (a - 1) * (θ * θ) *
      ∑ k ∈ range M.domains.length, ∑ c ∈ range (M.size (M.part k)),
        (P k).volForm abs (M.cellX x (gcell (M.part k) c)) *
          (P k).pen (meanDensity ((P k).d + 1) (M.cellZ z (gcell (M.part k) c))) *
          ∑ t ∈ range M.dim, ∑ s ∈ range M.dim, (P k).law.stiff.at (P k).law.nonlinear T t s := by
  unfold thermoForm meshForm
  rw [mul_sum]
  refine sum_congr rfl fun k hk => ?_
  rw [mul_sum]
  refine sum_congr rfl fun c hc => ?_
  have hk' := mem_range.1 hk
  have hdk := h.d k hk'
  have hd := d3 h hk'
  have hgc := (hM.domOk k).1 c (mem_range.1 hc)
  have hdt : detForm (P k).d (M.cellX x (gcell (M.part k) c)) ≠ 0 := by rw [hdk]; exact hdet _ hgc
  have htemp : ∀ n, n < (P k).d + 1 → dofs M u (gcell (M.part k) c) (n * ((P k).d + 1) + (P k).d) = T := by
    intro n hn
    rw [hdk] at hn ⊢
    rw [dofs_at h _ _ _ _ (by omega), ← h.ndof]
    exact hT _ (hM.mesh.node_lt hgc hn)
  have eT : (P k).tempAt (dofs M u (gcell (M.part k) c)) = T := by
    refine tempAt_const ?_ fun n hn => ?_
    · rw [hdk]; exact hbasis k hk'
    · rw [Nat.mul_comm]; exact htemp n hn
  have eG : ∀ j, j < (P k).d → (P k).gradT (dofs M u (gcell (M.part k) c)) (M.cellX x (gcell (M.part k) c)) j = 0 :=
    fun j hj => tmGradT_const hd hdt htemp hj
  have eS : ∀ s, s < numVoigt (P k).d → (P k).strainForm (dofs M u (gcell (M.part k) c))
      (M.cellX x (gcell (M.part k) c)) s = if s < M.dim then a * θ else 0 := by
    intro s hs
    rw [strain_affine hd hdt (b := fun _ => 0) (A := fun i j => if i = j then a * θ else 0) fun n i hn hi => ?_]
    · rw [hdk] at hs ⊢
      rcases h.dim with e | e <;> rw [e] at hs ⊢
      · change s < 3 at hs
        interval_cases s <;> simp [voigtPair]
      · change s < 6 at hs
        interval_cases s <;> simp [voigtPair]
    · rw [hdk] at hn hi ⊢
      rw [dofs_at h _ _ _ _ (by omega), ← h.ndof, hU _ i (hM.mesh.node_lt hgc hn) hi]
      simp only [ite_mul, zero_mul, sum_ite_eq, mem_range, hi, if_true, zero_add]
      rfl
  have eN : ∀ s, s < numVoigt (P k).d → (P k).law.normalStrain (P k).d T s = if s < M.dim then θ else 0 := by
    intro s _
    unfold TmLaw.normalStrain
    rw [hdk]
    split_ifs with hs
    · rw [h0 k s s hk' hs hs, if_pos rfl]
    · rfl
  have hV : M.dim ≤ numVoigt (P k).d := by
    rw [hdk]
    rcases h.dim with e | e <;> rw [e] <;> decide
  have hcut : ∀ f : Nat → ℝ, (∀ t, M.dim ≤ t → f t = 0) → ∑ t ∈ range (numVoigt (P k).d), f t = ∑ t ∈ range M.dim, f t := by
    intro f hf
    refine (sum_subset (range_subset_range.2 hV) fun t _ ht => hf t ?_).symm
    simpa using ht
  unfold cellThermo
  dsimp only
  rw [eT, sum_eq_zero (s := range (P k).d) fun i _ => sum_eq_zero fun j hj => by
    rw [eG j (mem_range.1 hj), mul_zero, zero_mul, zero_mul], add_zero]
  have e : ∀ t ∈ range (numVoigt (P k).d), ∑ s ∈ range (numVoigt (P k).d),
      ((P k).strainForm (dofs M u (gcell (M.part k) c)) (M.cellX x (gcell (M.part k) c)) s -
        (P k).law.normalStrain (P k).d T s) * (P k).law.stiff.at (P k).law.nonlinear T t s *
        (P k).strainForm (dofs M u (gcell (M.part k) c)) (M.cellX x (gcell (M.part k) c)) t =
      if t < M.dim then ∑ s ∈ range M.dim, a * (a - 1) * (θ * θ) * (P k).law.stiff.at (P k).law.nonlinear T t s else 0 := by
    intro t ht
    rw [sum_congr rfl fun s hs => by rw [eS t (mem_range.1 ht), eS s (mem_range.1 hs), eN s (mem_range.1 hs)]]
    split_ifs with h1
    · rw [hcut _ fun s hs => by rw [if_neg (by omega), if_neg (by omega)]; ring]
      refine sum_congr rfl fun s hs => ?_
      rw [if_pos (mem_range.1 hs), if_pos (mem_range.1 hs)]
      ring
    · simp
  rw [sum_congr rfl e, hcut _ fun t ht => if_neg (by omega), sum_congr rfl fun t ht => if_pos (mem_range.1 ht)]
  simp only [← mul_sum]
  ring

end Expansion

section Negative
variable {M : FeModel} (hM : M.Ok) {P : Nat → Tm ℝ} (h : TmOk M P)
  {eR : Nat → List Nat} (heR : ∀ k, IsSchedule (eR k) (M.size (M.part k)))
  {sv : Sched} {wv : Nat} {u z x : List ℝ} (hu : u.length = M.nn * M.ndof)
  (hz : z.length = M.nn) (hx : x.length = M.nn * M.dim) (hsv : sv.Ok M 1 wv)
include hM h heR hu hz hx hsv

/-- **C90 is false for the sign**: with thermal expansion the criterion pairs the stress, which belongs to the elastic
strain, with the whole strain.  Heated bodies that reach half of their free expansion have a negative energy, on any
mesh and for any stiffness, in spite of the stress in them. -/
theorem C90_sign_false (hbasis : ∀ k, k < M.domains.length → ∑ n ∈ range (M.dim + 1), at0 (P k).basis n = 1)
    (hdet : ∀ c, c < M.nc → detForm M.dim (M.cellX x c) ≠ 0) {T θ : ℝ} (hθ : θ ≠ 0)
    (h0 : ∀ k i j, k < M.domains.length → i < M.dim → j < M.dim →
      (P k).law.scale * (P k).law.expand.at (P k).law.nonlinear T i j * (T - (P k).law.tref) = if i = j then θ else 0)
    (hT : ∀ n, n < M.nn → at0 u (M.ndof * n + M.dim) = T)
    (hU : ∀ n i, n < M.nn → i < M.dim → at0 u (M.ndof * n + i) = 1 / 2 * θ * at0 x (M.dim * n + i))
    (hw : ∀ k, k < M.domains.length → 0 < (P k).cubWeight)
    (hpen : ∀ k c, k < M.domains.length → c < M.size (M.part k) →
      0 < (P k).pen (meanDensity ((P k).d + 1) (M.cellZ z (gcell (M.part k) c))))
    (hstiff : ∀ k, k < M.domains.length →
      0 < ∑ t ∈ range M.dim, ∑ s ∈ range M.dim, (P k).law.stiff.at (P k).law.nonlinear T t s)
    (hcell : ∃ k c, k < M.domains.length ∧ c < M.size (M.part k)) (dt : ℝ) :
    (physicsValue M (thermoelasticEnergy abs P eR) Post.none sv [u] z x dt).Sat fun v => v < 0 := by
  refine ⟨_, energy_value hM h heR (by simpa using hu) hz hx hsv dt, ?_⟩
  rw [show [u].length = 1 from rfl, sum_range_one, show ([u][0]?.getD []) = u from rfl,
    thermoForm_fraction hM h hdet hbasis h0 hT hU]
  have hpos : ∀ k c, k < M.domains.length → c < M.size (M.part k) →
      0 < (P k).volForm abs (M.cellX x (gcell (M.part k) c)) *
          (P k).pen (meanDensity ((P k).d + 1) (M.cellZ z (gcell (M.part k) c))) *
          ∑ t ∈ range M.dim, ∑ s ∈ range M.dim, (P k).law.stiff.at (P k).law.nonlinear T t s := by
    intro k c hk hc
    refine mul_pos (mul_pos (mul_pos (abs_pos.2 ?_) (hw k hk)) (hpen k c hk hc)) (hstiff k hk)
    rw [h.d k hk]
    exact hdet _ ((hM.domOk k).1 c hc)
  obtain ⟨k, c, hk, hc⟩ := hcell
  have : 0 < ∑ k ∈ range M.domains.length, ∑ c ∈ range (M.size (M.part k)),
      (P k).volForm abs (M.cellX x (gcell (M.part k) c)) *
        (P k).pen (meanDensity ((P k).d + 1) (M.cellZ z (gcell (M.part k) c))) *
        ∑ t ∈ range M.dim, ∑ s ∈ range M.dim, (P k).law.stiff.at (P k).law.nonlinear T t s :=
    sum_pos' (fun k hk => sum_nonneg fun c hc => (hpos k c (mem_range.1 hk) (mem_range.1 hc)).le)
      ⟨k, mem_range.2 hk, sum_pos' (fun c hc => (hpos k c hk (mem_range.1 hc)).le) ⟨c, mem_range.2 hc, hpos k c hk hc⟩⟩
  have hθ2 : 0 < θ * θ := mul_self_pos.2 hθ
  nlinarith [mul_pos hθ2 this]

/-- **C90 is false for clamped bodies**: held at zero displacement and heated uniformly, a body is under stress, but
its energy is zero whatever the temperature, on any mesh and for any material. -/
theorem C90_clamped_false (hdet : ∀ c, c < M.nc → detForm M.dim (M.cellX x c) ≠ 0) {T : ℝ}
    (hT : ∀ n, n < M.nn → at0 u (M.ndof * n + M.dim) = T)
    (hU : ∀ n i, n < M.nn → i < M.dim → at0 u (M.ndof * n + i) = 0) (dt : ℝ) :
    physicsValue M (thermoelasticEnergy abs P eR) Post.none sv [u] z x dt = .ok 0 := by
  rw [energy_value hM h heR (by simpa using hu) hz hx hsv dt]
  congr 1
  rw [show [u].length = 1 from rfl, sum_range_one, show ([u][0]?.getD []) = u from rfl]
  unfold thermoForm meshForm
  refine sum_eq_zero fun k hk => sum_eq_zero fun c hc => ?_
  have hk' := mem_range.1 hk
  have hdk := h.d k hk'
  have hd := d3 h hk'
  have hgc := (hM.domOk k).1 c (mem_range.1 hc)
  have hdt : detForm (P k).d (M.cellX x (gcell (M.part k) c)) ≠ 0 := by rw [hdk]; exact hdet _ hgc
  have eG : ∀ j, j < (P k).d →
      (P k).gradT (dofs M (at0 u) (gcell (M.part k) c)) (M.cellX x (gcell (M.part k) c)) j = 0 :=
    fun j hj => tmGradT_const hd hdt (a := T) (fun n hn => by
      rw [hdk] at hn ⊢
      rw [dofs_at h _ _ _ _ (by omega), ← h.ndof]
      exact hT _ (hM.mesh.node_lt hgc hn)) hj
  have eS : ∀ t, (P k).strainForm (dofs M (at0 u) (gcell (M.part k) c)) (M.cellX x (gcell (M.part k) c)) t = 0 :=
    strain_const hd hdt (b := fun _ => 0) fun n i hn hi => by
      rw [hdk] at hn hi ⊢
      rw [dofs_at h _ _ _ _ (by omega), ← h.ndof]
      exact hU _ i (hM.mesh.node_lt hgc hn) hi
  unfold cellThermo
  dsimp only
  rw [sum_eq_zero fun t _ => sum_eq_zero fun s _ => by rw [eS t, mul_zero],
    sum_eq_zero fun i _ => sum_eq_zero fun j hj => by rw [eG j (mem_range.1 hj), mul_zero, zero_mul, zero_mul],
    add_zero, mul_zero]

variable {init : Nat → Nat → Nat → Nat} {eS : Nat → Nat → List Nat}
  (heS : ∀ k j, IsSchedule (eS k j) (M.size (M.part k)))
  {sch : Nat → Nat → List Nat} (hs : SchedOk M sch (M.npc * M.ndof))
include heS hs

/-- **C90, energy and residual**: the internal thermoelastic energy of a state is the work of the steady residual (C61)
on it plus the work of the body loads, whatever the material. -/
theorem C90_work (dt : ℝ) :
    ∃ r v, M.value (thermoelastic abs M P init eS) sch u z x = .ok r ∧
      physicsValue M (thermoelasticEnergy abs P eR) Post.none sv [u] z x dt = .ok v ∧
      v = ∑ q ∈ range (M.nn * M.ndof), at0 r q * at0 u q + loadWork M (fun k => (P k).bodyLoads) z (at0 u) := by
  obtain ⟨r, e, -, hw⟩ := static_work hM h (init := init) heS hu hz hx hs
  refine ⟨r, _, e, energy_value hM h heR (by simpa using hu) hz hx hsv dt, ?_⟩
  rw [hw (at0 u), sub_add_cancel, show [u].length = 1 from rfl, sum_range_one]
  rfl

end Negative

/-! ## Derivatives -/

section Derivatives
variable {M : FeModel} (hM : M.Ok) {P : Nat → Tm ℝ} (h : TmOk M P) {penF : Nat → Fad → Fad}
  {eR eX eU eZ : Nat → List Nat} (heR : ∀ k, IsSchedule (eR k) (M.size (M.part k)))
  (heX : ∀ k, IsSchedule (eX k) (M.size (M.part k))) (heU : ∀ k, IsSchedule (eU k) (M.size (M.part k)))
  (heZ : ∀ k, IsSchedule (eZ k) (M.size (M.part k))) {sv sx su sz : Sched} {wv : Nat} {S : List (List ℝ)}
  {z : Fin M.nn → ℝ} {x : Fin (M.nn * M.dim) → ℝ} {u : Fin (M.nn * M.ndof) → ℝ} {j : Nat}
include hM h heR heX heU heZ

/-- **C90, derivatives**, for all materials, also temperature dependent ones. -/
theorem C90_gradient (dt : ℝ) (hj : S[j]? = some (List.ofFn u)) (hS : ∀ u ∈ S, u.length = M.nn * M.ndof)
    (hgood : ∀ c, c < M.nc → tmGood M P penF (M.cellZ (List.ofFn z) c) (M.cellX (List.ofFn x) c))
    (hsv : sv.Ok M S.length wv) (hsx : sx.Ok M S.length (M.npc * M.dim)) (hsu : su.Ok M 1 (M.npc * M.ndof))
    (hsz : sz.Ok M S.length (M.npc * 1)) :
    Differentiates (physicsCriterion M (thermoelasticEnergy abs P eR)
      (thermoelasticEnergy Fad.fabs (fun k => (P k).lift (penF k)) eX)
      (thermoelasticEnergy Fad.fabs (fun k => (P k).lift (penF k)) eU)
      (thermoelasticEnergy Fad.fabs (fun k => (P k).lift (penF k)) eZ) Post.none sv sx su sz)
      (M.nn * M.dim) (M.nn * M.ndof) M.nn S z x j u dt :=
  C51_differentiates hM (good_local h) hj hS (energy_tracks h heR heX dt _) (energy_tracks h heR heU dt _)
    (energy_tracks h heR heZ dt _) (fun _ _ c hc => hgood c hc) hsv hsx hsu hsz (.inr rfl)
    fun m v _ _ => Post.none_ok m v

end Derivatives

section Transient
variable {M : FeModel} (hM : M.Ok) {F T : Nat} {H : List (List (List ℝ))} (hH : HistOk M F H T) {dt : ℝ}
  {sv sx su sz : TSched} {wv : Nat} (hsv : sv.Ok M F (T - 1) wv) (hsx : sx.Ok M F (T - 1) (M.npc * M.dim))
  (hsu : su.Ok M F 1 (M.npc * M.ndof)) (hsz : sz.Ok M F (T - 1) (M.npc * 1))
  {P : Nat → Tm ℝ} (h : TmOk M P) {eR eF : Nat → List Nat} (heR : ∀ k, IsSchedule (eR k) (M.size (M.part k)))
  (heF : ∀ k, IsSchedule (eF k) (M.size (M.part k)))
include hM hH hsv h heR

/-- **C90 in transient problems**: the sum over the steps after the first of what the criterion of steady problems
reports. -/
theorem C90_transient_value {z x : List ℝ} (hz : z.length = M.nn) (hx : x.length = M.nn * M.dim)
    {hist : List (List ℝ)} (h0 : H[0]? = some hist) {s : Sched} {w : Nat} (hs : s.Ok M (T - 1) w) :
    transValue M F (ofState (thermoelasticEnergy abs P eR)) Post.none sv H z x dt =
      physicsValue M (thermoelasticEnergy abs P eR) Post.none s hist.tail z x dt :=
  C89_state_value hM hH hz hx hsv (energy_computes h heR dt) (energy_local h) _ h0 hs

include hsx hsu hsz heF

/-- **C90, derivatives in transient problems.** -/
theorem C90_transient_gradients {penF : Nat → Fad → Fad} {z : Fin M.nn → ℝ} {x : Fin (M.nn * M.dim) → ℝ} {f j : Nat}
    {u : Fin (M.nn * M.ndof) → ℝ} (hf : f < F) (hj0 : 0 < j) (hjT : j < T) (hj : stateAt H f j = List.ofFn u)
    (hgood : ∀ c, c < M.nc → tmGood M P penF (M.cellZ (List.ofFn z) c) (M.cellX (List.ofFn x) c)) :
    Reports (M.nn * M.dim) (fun y => transValue M F (ofState (thermoelasticEnergy abs P eR)) Post.none sv H
      (List.ofFn z) y dt) (transGradX M F (ofState (thermoelasticEnergy Fad.fabs (fun k => (P k).lift (penF k)) eF))
        Post.none sx H (List.ofFn z) (List.ofFn x) dt) x ∧
    Reports M.nn (fun y => transValue M F (ofState (thermoelasticEnergy abs P eR)) Post.none sv H y (List.ofFn x) dt)
      (transGradZ M F (ofState (thermoelasticEnergy Fad.fabs (fun k => (P k).lift (penF k)) eF)) Post.none sz lateRate
        H (List.ofFn z) (List.ofFn x) dt) z ∧
    Reports (M.nn * M.ndof) (fun y => transValue M F (ofState (thermoelasticEnergy abs P eR)) Post.none sv
      (setStep H f j y) (List.ofFn z) (List.ofFn x) dt) (transGradField M F f
        (ofState (thermoelasticEnergy Fad.fabs (fun k => (P k).lift (penF k)) eF)) Post.none su H (List.ofFn z)
        (List.ofFn x) j dt) u := by
  obtain ⟨h1, h2, -, h4⟩ := C89_state_gradients hM hH hsv hsx hsu hsz hf hj0 hjT hj (good_local h)
    (fun p => energy_tracks h heR heF dt p) (fun t _ _ c hc => hgood c hc) (.inr rfl) fun m v _ => Post.none_ok m v
  exact ⟨h1, h2, h4⟩

end Transient

end Plato.TmCrit
