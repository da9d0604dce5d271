import Verif.Tm.Form
import Verif.Dyn.Props

/-!
# Thermomechanics

C61: work of the steady residual, balance of forces and heat, free thermal expansion, one way coupling, the
temperature scaling.  C62: the same for the transient residual, and its capacity matrix.
-/

namespace Plato.Tm
open Finset Plato Plato.Mech Plato.Thermal Plato.Dyn

theorem cellThermo_theta {θ θ' : TmLaw ℝ → Nat → ℝ → Nat → ℝ} {P : Tm ℝ}
    (hθ : ∀ T s, s < numVoigt P.d → θ P.law P.d T s = θ' P.law P.d T s) {Z : Nat → ℝ} {X : Nat → Nat → ℝ}
    {U W : Nat → ℝ} : cellThermo θ P Z X U W = cellThermo θ' P Z X U W := by
  unfold cellThermo
  rw [sum_congr rfl fun t _ => sum_congr rfl fun s hs => by rw [hθ _ _ (mem_range.1 hs)]]

section
variable {M : FeModel} {P : Nat → Tm ℝ} {z x : List ℝ}

theorem thermoForm_diag (h : TmOk M P)
    (h0 : ∀ k T i j, k < M.domains.length → i < M.dim → j < M.dim → i ≠ j →
      (P k).law.expand.at (P k).law.nonlinear T i j = 0) (u w : Nat → ℝ) :
    thermoForm TmLaw.normalStrain M P z x u w = thermoForm expansion M P z x u w := by
  unfold thermoForm meshForm
  refine sum_congr rfl fun k hk => sum_congr rfl fun c _ => ?_
  have hk' := mem_range.1 hk
  have hdk := h.d k hk'
  exact cellThermo_theta fun T s hs => normalStrain_eq (by rw [hdk]; exact h.dim)
    (fun i j hi hj hij => h0 k T i j hk' (by rwa [hdk] at hi) (by rwa [hdk] at hj) hij) hs

end

/-! ## Work -/

section
variable {M : FeModel} (hM : M.Ok) {P : Nat → Tm ℝ} (h : TmOk M P) {init : Nat → Nat → Nat → Nat}
  {eR : Nat → Nat → List Nat} (heR : ∀ k j, IsSchedule (eR k j) (M.size (M.part k)))
  {u z x : List ℝ} (hu : u.length = M.nn * M.ndof) (hz : z.length = M.nn) (hx : x.length = M.nn * M.dim)
  {sch : Nat → Nat → List Nat} (hs : SchedOk M sch (M.npc * M.ndof))
include hM h heR hu hz hx hs

/-- What the steady residual computes. -/
theorem static_work :
    (M.value (thermoelastic abs M P init eR) sch u z x).Sat fun r => r.length = M.nn * M.ndof ∧ ∀ w : Nat → ℝ,
      ∑ q ∈ range (M.nn * M.ndof), at0 r q * w q =
        thermoForm TmLaw.normalStrain M P z x (at0 u) w - loadWork M (fun k => (P k).bodyLoads) z w := by
  refine (RowEv.work hM (thermoelastic_rowR h (init := init) heR) hu hz hx hs).mono ?_
  rintro r ⟨hl, hw⟩
  refine ⟨hl, fun w => ?_⟩
  rw [hw w]
  unfold thermoForm loadWork meshForm
  simp only [← sum_sub_distrib]
  refine sum_congr rfl fun k hk => sum_congr rfl fun c hc => ?_
  have hk' := mem_range.1 hk
  have hdk := h.d k hk'
  have hnd : M.npc * M.ndof = ((P k).d + 1) * ((P k).d + 1) := by rw [h.ndof, FeModel.npc, hdk]
  have hL : ∀ L ∈ (P k).bodyLoads, L.dof < (P k).d + 1 := fun L hL => by
    rw [hdk]
    exact (h.loads k _ (if_pos hk') L hL).dof
  have e1 := solidRow_work (P k) (by rw [hdk]; exact .inr h.dim) (dofs M (at0 u) (gcell (M.part k) c))
    (M.cellZ z (gcell (M.part k) c)) (M.cellX x (gcell (M.part k) c)) (dofs M w (gcell (M.part k) c))
  have e2 := loads_work (d := (P k).d) hL c (gcell (M.part k) c) (M.cellZ z (gcell (M.part k) c))
    (dofs M w (gcell (M.part k) c))
  have hll : ∀ Z W : Nat → ℝ, (fun L => cellLoad L M.dim M.ndof c (gcell (M.part k) c) Z W) =
      fun L => cellLoad L (P k).d ((P k).d + 1) c (gcell (M.part k) c) Z W := by
    intro Z W
    rw [h.ndof, hdk]
  rw [hll, ← e1, sub_eq_add_neg, ← e2, ← sum_add_distrib, ← hnd]
  exact sum_congr rfl fun l _ => by rw [← add_mul]; rfl

/-- **C61** for materials without shear expansion, in two and three dimensions: on every virtual displacement
and temperature the residual does the work of the thermoelastic stress and of the heat flux, less the work of
the body loads.  The tensors may depend on temperature. -/
theorem C61_work_partial (h0 : ∀ k T i j, k < M.domains.length → i < M.dim → j < M.dim → i ≠ j →
      (P k).law.expand.at (P k).law.nonlinear T i j = 0) :
    (M.value (thermoelastic abs M P init eR) sch u z x).Sat fun r => r.length = M.nn * M.ndof ∧ ∀ w : Nat → ℝ,
      ∑ q ∈ range (M.nn * M.ndof), at0 r q * w q =
        thermoForm expansion M P z x (at0 u) w - loadWork M (fun k => (P k).bodyLoads) z w := by
  refine (static_work hM h (init := init) heR hu hz hx hs).mono ?_
  rintro r ⟨hl, hw⟩
  exact ⟨hl, fun w => by rw [hw w, thermoForm_diag h h0]⟩

end

section
variable {M : FeModel} (hM : M.Ok) {P : Nat → Tm ℝ} (h : TmOk M P) {init : Nat → Nat → Nat → Nat}
  {eR : Nat → List Nat} (heR : ∀ k, IsSchedule (eR k) (M.size (M.part k)))
  {u v z x : List ℝ} (hu : u.length = M.nn * M.ndof) (hv : v.length = M.nn * M.ndof) (hz : z.length = M.nn)
  (hx : x.length = M.nn * M.dim) {sch : Nat → Nat → List Nat} (hs : ParSchedOk M sch (M.npc * M.ndof))
include hM h heR hu hv hz hx hs

/-- What the transient residual computes. -/
theorem transient_work :
    (parValue M (thermomech abs M P init eR) sch u v z x).Sat fun r => r.length = M.nn * M.ndof ∧ ∀ w : Nat → ℝ,
      ∑ q ∈ range (M.nn * M.ndof), at0 r q * w q =
        thermoForm TmLaw.normalStrain M P z x (at0 u) w + heatOf M P z x (at0 u) (at0 v) w := by
  have hR := thermomech_rowR h (init := init) heR
  rw [parValue_rate hM hu hv hz hx hs hR]
  refine (RowEv.work hM (rowAtRate_row hR _) hu hz hx hs.toSched).mono ?_
  rintro r ⟨hl, hw⟩
  refine ⟨hl, fun w => ?_⟩
  rw [hw w]
  unfold thermoForm heatOf meshForm
  simp only [← sum_add_distrib]
  refine sum_congr rfl fun k hk => sum_congr rfl fun c hc => ?_
  have hk' := mem_range.1 hk
  have hdk := h.d k hk'
  have hnd : M.npc * M.ndof = ((P k).d + 1) * ((P k).d + 1) := by rw [h.ndof, FeModel.npc, hdk]
  have e1 := solidRow_work (P k) (by rw [hdk]; exact .inr h.dim) (dofs M (at0 u) (gcell (M.part k) c))
    (M.cellZ z (gcell (M.part k) c)) (M.cellX x (gcell (M.part k) c)) (dofs M w (gcell (M.part k) c))
  have e2 := tmHeat_work (P k) (dofs M (at0 u) (gcell (M.part k) c)) (dofs M (at0 v) (gcell (M.part k) c))
    (M.cellZ z (gcell (M.part k) c)) (M.cellX x (gcell (M.part k) c)) (dofs M w (gcell (M.part k) c))
  rw [← e1, ← e2, ← sum_add_distrib, ← hnd]
  exact sum_congr rfl fun l _ => by rw [← add_mul]; rfl

/-- **C62** for materials without shear expansion: on every virtual displacement and temperature the residual
does the work of the thermoelastic stress, of the heat flux, and of the rate of the heat content.  The tensors,
the density and the heat capacity may depend on temperature. -/
theorem C62_work_partial (h0 : ∀ k T i j, k < M.domains.length → i < M.dim → j < M.dim → i ≠ j →
      (P k).law.expand.at (P k).law.nonlinear T i j = 0) :
    (parValue M (thermomech abs M P init eR) sch u v z x).Sat fun r => r.length = M.nn * M.ndof ∧ ∀ w : Nat → ℝ,
      ∑ q ∈ range (M.nn * M.ndof), at0 r q * w q =
        thermoForm expansion M P z x (at0 u) w + heatOf M P z x (at0 u) (at0 v) w := by
  refine (transient_work hM h (init := init) heR hu hv hz hx hs).mono ?_
  rintro r ⟨hl, hw⟩
  exact ⟨hl, fun w => by rw [hw w, thermoForm_diag h h0]⟩

end

/-! ## Virtual fields -/

theorem work_single {n : Nat} {r : List ℝ} {q : Nat} (hq : q < n) :
    ∑ p ∈ range n, at0 r p * (Pi.single q 1 : Nat → ℝ) p = at0 r q := by
  simp only [mul_comm (at0 _ _)]
  rw [sum_single_left hq]

/-- Indicator of one unknown of the nodes. -/
def unknown (m i q : Nat) : ℝ := if q % m = i then 1 else 0

theorem sum_unknown {m i : Nat} (hi : i < m) (r : List ℝ) : ∀ nn,
    ∑ q ∈ range (nn * m), at0 r q * unknown m i q = ∑ n ∈ range nn, at0 r (m * n + i) := by
  intro nn
  induction nn with
  | zero => simp
  | succ nn ih =>
    rw [Nat.succ_mul, sum_range_add, ih, sum_range_succ]
    congr 1
    rw [sum_eq_single i]
    · unfold unknown
      rw [Nat.mul_comm nn m, Nat.mul_add_mod, Nat.mod_eq_of_lt hi, if_pos rfl, mul_one]
    · intro j hj hne
      unfold unknown
      rw [Nat.mul_comm nn m, Nat.mul_add_mod, Nat.mod_eq_of_lt (mem_range.1 hj), if_neg hne, mul_zero]
    · intro hni
      exact absurd (mem_range.2 hi) hni

section
variable {M : FeModel} {P : Nat → Tm ℝ} (h : TmOk M P)
include h

/-- Work vanishes on a uniform virtual displacement and temperature. -/
theorem thermoForm_unknown (hM : M.Ok) {z x : List ℝ} (hdet : ∀ c, c < M.nc → detForm M.dim (M.cellX x c) ≠ 0)
    (θ : TmLaw ℝ → Nat → ℝ → Nat → ℝ) (u : Nat → ℝ) (i : Nat) :
    thermoForm θ M P z x u (unknown M.ndof i) = 0 := by
  unfold thermoForm meshForm
  refine sum_eq_zero fun k hk => sum_eq_zero fun c hc => ?_
  have hdk := h.d k (mem_range.1 hk)
  have hd : (P k).d = 1 ∨ (P k).d = 2 ∨ (P k).d = 3 := by rw [hdk]; exact .inr h.dim
  have hdt : detForm (P k).d (M.cellX x (gcell (M.part k) c)) ≠ 0 := by
    rw [hdk]; exact hdet _ ((hM.domOk k).1 c (mem_range.1 hc))
  have hU : ∀ n j, j < M.dim + 1 → dofs M (unknown M.ndof i) (gcell (M.part k) c) (n * (M.dim + 1) + j) =
      if j = i then 1 else 0 := by
    intro n j hj
    rw [dofs_at h _ _ _ _ hj]
    unfold unknown
    rw [h.ndof, Nat.mul_add_mod, Nat.mod_eq_of_lt hj]
  unfold cellThermo
  dsimp only
  have e1 : ∀ t, (P k).strainForm (dofs M (unknown M.ndof i) (gcell (M.part k) c)) (M.cellX x (gcell (M.part k) c)) t = 0 :=
    strain_const hd hdt (b := fun j => if j = i then 1 else 0) fun n j _ hj => by
      rw [hdk] at hj ⊢
      exact hU n j (by omega)
  have e2 : ∀ j, j < (P k).d →
      (P k).gradT (dofs M (unknown M.ndof i) (gcell (M.part k) c)) (M.cellX x (gcell (M.part k) c)) j = 0 :=
    fun j hj => tmGradT_const hd hdt (a := if M.dim = i then 1 else 0) (fun n _ => by
      rw [hdk]
      exact hU n _ (by omega)) hj
  rw [sum_eq_zero fun t _ => sum_eq_zero fun s _ => by rw [e1, mul_zero],
    sum_eq_zero fun j hj => sum_eq_zero fun s _ => by rw [e2 j (mem_range.1 hj), mul_zero], add_zero, mul_zero]

end

section
variable {M : FeModel} (hM : M.Ok) {P : Nat → Tm ℝ} (h : TmOk M P) {init : Nat → Nat → Nat → Nat}
  {eR : Nat → Nat → List Nat} (heR : ∀ k j, IsSchedule (eR k j) (M.size (M.part k)))
  {u z x : List ℝ} (hu : u.length = M.nn * M.ndof) (hz : z.length = M.nn) (hx : x.length = M.nn * M.dim)
  {sch : Nat → Nat → List Nat} (hs : SchedOk M sch (M.npc * M.ndof))
  (hdet : ∀ c, c < M.nc → detForm M.dim (M.cellX x c) ≠ 0)
include hM h heR hu hz hx hs hdet

/-- **C61**, balance of forces and of heat, for all materials: in every direction the nodal forces add up to
the resultant of the body loads, and so do the nodal heats. -/
theorem C61_balance {i : Nat} (hi : i < M.ndof) :
    (M.value (thermoelastic abs M P init eR) sch u z x).Sat fun r =>
      ∑ n ∈ range M.nn, at0 r (M.ndof * n + i) = -loadWork M (fun k => (P k).bodyLoads) z (unknown M.ndof i) := by
  refine (static_work hM h (init := init) heR hu hz hx hs).mono ?_
  rintro r ⟨-, hw⟩
  have := hw (unknown M.ndof i)
  rwa [sum_unknown hi, thermoForm_unknown h hM hdet, zero_sub] at this

/-- **C61**, free expansion, for materials without shear expansion: at a uniform temperature `T`, if every
domain has the same thermal strain `A`, the displacements `A x` plus a rigid motion leave the body free of
stress and of flux: without body loads every entry of the residual vanishes. -/
theorem C61_free_expansion_partial (h0 : ∀ k T i j, k < M.domains.length → i < M.dim → j < M.dim → i ≠ j →
      (P k).law.expand.at (P k).law.nonlinear T i j = 0)
    (hload : ∀ k, k < M.domains.length → (P k).bodyLoads = [])
    (hbasis : ∀ k, k < M.domains.length → ∑ n ∈ range (M.dim + 1), at0 (P k).basis n = 1)
    {T : ℝ} {A W : Nat → Nat → ℝ} {b : Nat → ℝ} (hW : ∀ i j, W i j = -W j i)
    (hA : ∀ k i j, k < M.domains.length → i < M.dim → j < M.dim →
      (P k).law.scale * (P k).law.expand.at (P k).law.nonlinear T i j * (T - (P k).law.tref) = A i j)
    (hT : ∀ n, n < M.nn → at0 u (M.ndof * n + M.dim) = T)
    (hU : ∀ n i, n < M.nn → i < M.dim →
      at0 u (M.ndof * n + i) = b i + ∑ j ∈ range M.dim, (A i j + W i j) * at0 x (M.dim * n + j)) :
    (M.value (thermoelastic abs M P init eR) sch u z x).Sat fun r => ∀ q, q < M.nn * M.ndof → at0 r q = 0 := by
  refine (C61_work_partial hM h (init := init) heR hu hz hx hs h0).mono ?_
  rintro r ⟨-, hw⟩ q hq
  rw [← work_single hq, hw]
  have hl : loadWork M (fun k => (P k).bodyLoads) z (Pi.single q 1) = 0 := by
    unfold loadWork
    refine sum_eq_zero fun k hk => sum_eq_zero fun c _ => ?_
    dsimp only
    rw [hload k (mem_range.1 hk)]
    rfl
  rw [hl, sub_zero]
  unfold thermoForm meshForm
  refine sum_eq_zero fun k hk => sum_eq_zero fun c hc => ?_
  have hk' := mem_range.1 hk
  have hdk := h.d k hk'
  have hd : (P k).d = 1 ∨ (P k).d = 2 ∨ (P k).d = 3 := by rw [hdk]; exact .inr h.dim
  have hgc := (hM.domOk k).1 c (mem_range.1 hc)
  have hdt : detForm (P k).d (M.cellX x (gcell (M.part k) c)) ≠ 0 := by rw [hdk]; exact hdet _ hgc
  have htemp : ∀ n, n < (P k).d + 1 →
      dofs M (at0 u) (gcell (M.part k) c) (n * ((P k).d + 1) + (P k).d) = T := by
    intro n hn
    rw [hdk] at hn ⊢
    rw [dofs_at h _ _ _ _ (by omega), ← h.ndof]
    exact hT _ (hM.mesh.node_lt hgc hn)
  have eT : (P k).tempAt (dofs M (at0 u) (gcell (M.part k) c)) = T := by
    refine tempAt_const ?_ fun n hn => ?_
    · rw [hdk]; exact hbasis k hk'
    · rw [Nat.mul_comm]; exact htemp n hn
  have eG : ∀ j, j < (P k).d →
      (P k).gradT (dofs M (at0 u) (gcell (M.part k) c)) (M.cellX x (gcell (M.part k) c)) j = 0 :=
    fun j hj => tmGradT_const hd hdt htemp hj
  have eS : ∀ s, (P k).strainForm (dofs M (at0 u) (gcell (M.part k) c)) (M.cellX x (gcell (M.part k) c)) s =
      expansion (P k).law (P k).d T s := by
    intro s
    rw [strain_affine hd hdt (b := b) (A := fun i j => A i j + W i j) fun n i hn hi => ?_]
    · obtain ⟨h1, h2⟩ := voigtPair_lt hd (t := s)
      have g1 : (voigtPair (P k).d s).1 < M.dim := lt_of_lt_of_eq h1 hdk
      have g2 : (voigtPair (P k).d s).2 < M.dim := lt_of_lt_of_eq h2 hdk
      unfold expansion
      rw [hA k _ _ hk' g1 g2]
      have hw0 := hW (voigtPair (P k).d s).1 (voigtPair (P k).d s).1
      by_cases hij : (voigtPair (P k).d s).1 = (voigtPair (P k).d s).2
      · rw [if_pos hij, if_pos hij, ← hij]
        linarith
      · rw [if_neg hij, if_neg hij]
        have a1 := hA k _ _ hk' g1 g2
        have a2 := hA k _ _ hk' g2 g1
        rw [h0 k T _ _ hk' g1 g2 hij, mul_zero, zero_mul] at a1
        rw [h0 k T _ _ hk' g2 g1 (Ne.symm hij), mul_zero, zero_mul] at a2
        have := hW (voigtPair (P k).d s).1 (voigtPair (P k).d s).2
        rw [← a1, ← a2]
        linarith
    · rw [hdk] at hn hi ⊢
      rw [dofs_at h _ _ _ _ (by omega), ← h.ndof, hU _ i (hM.mesh.node_lt hgc hn) hi]
      rfl
  unfold cellThermo
  dsimp only
  rw [eT, sum_eq_zero fun t _ => sum_eq_zero fun s _ => by rw [eS, sub_self, zero_mul, zero_mul],
    sum_eq_zero fun i _ => sum_eq_zero fun j hj => by rw [eG j (mem_range.1 hj), mul_zero, zero_mul, zero_mul],
    add_zero, mul_zero]

end

/-! ## One way coupling -/

section
variable {M : FeModel} {P : Nat → Tm ℝ} (h : TmOk M P)
include h

theorem thermoForm_temp (hM : M.Ok) {z x : List ℝ} (θ : TmLaw ℝ → Nat → ℝ → Nat → ℝ) {u u' w : Nat → ℝ}
    (hT : ∀ n, n < M.nn → u (M.ndof * n + M.dim) = u' (M.ndof * n + M.dim))
    (hw : ∀ n i, n < M.nn → i < M.dim → w (M.ndof * n + i) = 0) :
    thermoForm θ M P z x u w = thermoForm θ M P z x u' w := by
  unfold thermoForm meshForm
  refine sum_congr rfl fun k hk => sum_congr rfl fun c hc => ?_
  have hk' := mem_range.1 hk
  have hdk := h.d k hk'
  have hd : (P k).d = 1 ∨ (P k).d = 2 ∨ (P k).d = 3 := by rw [hdk]; exact .inr h.dim
  have hgc := (hM.domOk k).1 c (mem_range.1 hc)
  have htemp : ∀ n, n < (P k).d + 1 → dofs M u (gcell (M.part k) c) (n * ((P k).d + 1) + (P k).d) =
      dofs M u' (gcell (M.part k) c) (n * ((P k).d + 1) + (P k).d) := by
    intro n hn
    rw [hdk] at hn ⊢
    rw [dofs_at h _ _ _ _ (by omega), dofs_at h _ _ _ _ (by omega), ← h.ndof]
    exact hT _ (hM.mesh.node_lt hgc hn)
  have eT : (P k).tempAt (dofs M u (gcell (M.part k) c)) = (P k).tempAt (dofs M u' (gcell (M.part k) c)) :=
    interp_congr fun n hn => by rw [Nat.mul_comm]; exact htemp n hn
  have eG : ∀ j, (P k).gradT (dofs M u (gcell (M.part k) c)) (M.cellX x (gcell (M.part k) c)) j =
      (P k).gradT (dofs M u' (gcell (M.part k) c)) (M.cellX x (gcell (M.part k) c)) j :=
    fun j => scalarField_congr htemp fun _ _ => rfl
  have eS : ∀ t, (P k).strainForm (dofs M w (gcell (M.part k) c)) (M.cellX x (gcell (M.part k) c)) t = 0 := by
    intro t
    have : (P k).strainForm (dofs M w (gcell (M.part k) c)) (M.cellX x (gcell (M.part k) c)) t =
        voigtStrain (P k).d (fun _ _ => 0) (gradForm (P k).d (M.cellX x (gcell (M.part k) c))) t :=
      voigtStrain_congr hd (fun n i hn hi => by
        rw [hdk] at hn hi ⊢
        rw [dofs_at h _ _ _ _ (by omega), ← h.ndof]
        exact hw _ i (hM.mesh.node_lt hgc hn) hi) fun _ _ _ _ => rfl
    rw [this]
    unfold voigtStrain fieldGrad
    simp
  unfold cellThermo
  simp only [eS, mul_zero, sum_const_zero, eT, eG]

end

theorem single_off {m n i j : Nat} (hi : i < m) (hj : j < m) (hij : i ≠ j) (n' : Nat) :
    (Pi.single (m * n + j) 1 : Nat → ℝ) (m * n' + i) = 0 := by
  refine Pi.single_eq_of_ne (fun e => hij ?_) _
  have := congrArg (· % m) e
  simpa [Nat.mul_add_mod, Nat.mod_eq_of_lt hi, Nat.mod_eq_of_lt hj] using this

section
variable {M : FeModel} (hM : M.Ok) {P : Nat → Tm ℝ} (h : TmOk M P) {init init' : Nat → Nat → Nat → Nat}
  {eR eR' : Nat → Nat → List Nat} (heR : ∀ k j, IsSchedule (eR k j) (M.size (M.part k)))
  (heR' : ∀ k j, IsSchedule (eR' k j) (M.size (M.part k)))
  {u u' z x : List ℝ} (hu : u.length = M.nn * M.ndof) (hu' : u'.length = M.nn * M.ndof) (hz : z.length = M.nn)
  (hx : x.length = M.nn * M.dim) {sch sch' : Nat → Nat → List Nat} (hs : SchedOk M sch (M.npc * M.ndof))
  (hs' : SchedOk M sch' (M.npc * M.ndof))
include hM h heR heR' hu hu' hz hx hs hs'

/-- **C61**: the coupling is one way, the nodal heats depend on the temperatures only: states with the same
temperatures have the same nodal heats, whatever the displacements. -/
theorem C61_one_way (hT : ∀ n, n < M.nn → at0 u (M.ndof * n + M.dim) = at0 u' (M.ndof * n + M.dim)) :
    ∃ r r', M.value (thermoelastic abs M P init eR) sch u z x = .ok r ∧
      M.value (thermoelastic abs M P init' eR') sch' u' z x = .ok r' ∧
      ∀ n, n < M.nn → at0 r (M.ndof * n + M.dim) = at0 r' (M.ndof * n + M.dim) := by
  obtain ⟨r, e, -, hw⟩ := static_work hM h (init := init) heR hu hz hx hs
  obtain ⟨r', e', -, hw'⟩ := static_work hM h (init := init') heR' hu' hz hx hs'
  refine ⟨r, r', e, e', fun n hn => ?_⟩
  have hq : M.ndof * n + M.dim < M.nn * M.ndof := by
    have := h.ndof
    calc M.ndof * n + M.dim < M.ndof * n + M.ndof := by omega
      _ = (n + 1) * M.ndof := by ring
      _ ≤ M.nn * M.ndof := Nat.mul_le_mul_right _ hn
  rw [← work_single hq, ← work_single (r := r') hq, hw, hw', thermoForm_temp h hM _ hT fun n' i _ hi =>
    single_off (by have := h.ndof; omega) (by have := h.ndof; omega) (by omega) n']

end

/-! ## The temperature scaling -/

/-- The same material with unit scaling; the reference temperature is in the scaled units. -/
def TmLaw.unscaled (L : TmLaw ℝ) : TmLaw ℝ := { L with tref := L.scale * L.tref, scale := 1 }

def Tm.unscaled (P : Tm ℝ) : Tm ℝ := { P with law := P.law.unscaled }

/-- A state with its temperatures multiplied by `s`. -/
noncomputable def scaleT (m i : Nat) (s : ℝ) (u : Nat → ℝ) (q : Nat) : ℝ := (if q % m = i then s else 1) * u q

section
variable {M : FeModel} {P : Nat → Tm ℝ} (h : TmOk M P)
include h

theorem unscaled_ok : TmOk M fun k => (P k).unscaled :=
  ⟨h.dim, h.ndof, h.d, h.basis, fun k hk => ⟨(h.law k hk).stiff, (h.law k hk).expand, (h.law k hk).cond⟩, h.loads⟩

theorem scaleT_dofs (s : ℝ) (u : Nat → ℝ) (c n i : Nat) (hi : i < M.dim + 1) :
    dofs M (scaleT M.ndof M.dim s u) c (n * (M.dim + 1) + i) =
      (if i = M.dim then s else 1) * dofs M u c (n * (M.dim + 1) + i) := by
  rw [dofs_at h _ _ _ _ hi, dofs_at h _ _ _ _ hi]
  unfold scaleT
  rw [h.ndof, Nat.mul_add_mod, Nat.mod_eq_of_lt hi]

theorem thermoForm_scaled {z x : List ℝ} {s : ℝ} (hlin : ∀ k, k < M.domains.length → (P k).law.nonlinear = false)
    (hsc : ∀ k, k < M.domains.length → (P k).law.scale = s) (u w : Nat → ℝ) :
    thermoForm TmLaw.normalStrain M P z x u w = thermoForm TmLaw.normalStrain M (fun k => (P k).unscaled) z x
      (scaleT M.ndof M.dim s u) (scaleT M.ndof M.dim s w) := by
  unfold thermoForm meshForm
  refine sum_congr rfl fun k hk => sum_congr rfl fun c hc => ?_
  have hk' := mem_range.1 hk
  have hdk := h.d k hk'
  have hd : (P k).d = 1 ∨ (P k).d = 2 ∨ (P k).d = 3 := by rw [hdk]; exact .inr h.dim
  have eU : ∀ (u : Nat → ℝ) n i, i < (P k).d → dofs M (scaleT M.ndof M.dim s u) (gcell (M.part k) c) (n * ((P k).d + 1) + i) =
      dofs M u (gcell (M.part k) c) (n * ((P k).d + 1) + i) := by
    intro u n i hi
    rw [hdk] at hi ⊢
    rw [scaleT_dofs h _ _ _ _ _ (by omega), if_neg (by omega), one_mul]
  have eV : ∀ (u : Nat → ℝ) n, dofs M (scaleT M.ndof M.dim s u) (gcell (M.part k) c) (n * ((P k).d + 1) + (P k).d) =
      s * dofs M u (gcell (M.part k) c) (n * ((P k).d + 1) + (P k).d) := by
    intro u n
    rw [hdk, scaleT_dofs h _ _ _ _ _ (by omega), if_pos rfl]
  have eS : ∀ (u : Nat → ℝ) t, (P k).unscaled.strainForm (dofs M (scaleT M.ndof M.dim s u) (gcell (M.part k) c))
      (M.cellX x (gcell (M.part k) c)) t =
      (P k).strainForm (dofs M u (gcell (M.part k) c)) (M.cellX x (gcell (M.part k) c)) t :=
    fun u t => voigtStrain_congr (d := (P k).d) hd (fun n i _ hi => eU u n i hi) fun _ _ _ _ => rfl
  have eG : ∀ (u : Nat → ℝ) j, (P k).unscaled.gradT (dofs M (scaleT M.ndof M.dim s u) (gcell (M.part k) c))
      (M.cellX x (gcell (M.part k) c)) j =
      s * (P k).gradT (dofs M u (gcell (M.part k) c)) (M.cellX x (gcell (M.part k) c)) j := by
    intro u j
    unfold Tm.gradT scalarField
    rw [mul_sum]
    refine sum_congr rfl fun n _ => ?_
    rw [show (P k).unscaled.d = (P k).d from rfl]
    dsimp only
    rw [eV]
    ring
  have eT : (P k).unscaled.tempAt (dofs M (scaleT M.ndof M.dim s u) (gcell (M.part k) c)) =
      s * (P k).tempAt (dofs M u (gcell (M.part k) c)) := by
    unfold Tm.tempAt interp
    rw [mul_sum]
    refine sum_congr rfl fun n _ => ?_
    rw [show (P k).unscaled.d = (P k).d from rfl]
    dsimp only
    rw [Nat.mul_comm _ n, eV]
    show at0 (P k).basis n * _ = _
    ring
  have eN : ∀ T t, (P k).unscaled.law.normalStrain (P k).d (s * T) t = (P k).law.normalStrain (P k).d T t := by
    intro T t
    unfold TmLaw.normalStrain Tm.unscaled TmLaw.unscaled Table.at
    dsimp only
    rw [hlin k hk', hsc k hk']
    rw [if_neg (by simp : ¬(false = true)), if_neg (by simp : ¬(false = true))]
    split_ifs
    · ring
    · rfl
  have eC : ∀ (F : Table ℝ) T T' i j, F.at (P k).law.nonlinear T i j = F.at (P k).law.nonlinear T' i j := by
    intro F T T' i j
    unfold Table.at
    rw [hlin k hk']
    rfl
  unfold cellThermo
  dsimp only
  rw [eT]
  simp only [eS, eG]
  rw [show (P k).unscaled.volForm abs (M.cellX x (gcell (M.part k) c)) = (P k).volForm abs (M.cellX x (gcell (M.part k) c)) from rfl,
    show (P k).unscaled.d = (P k).d from rfl, show (P k).unscaled.pen = (P k).pen from rfl,
    show (P k).unscaled.law.stiff = (P k).law.stiff from rfl, show (P k).unscaled.law.cond = (P k).law.cond from rfl,
    show (P k).unscaled.law.nonlinear = (P k).law.nonlinear from rfl, show (P k).unscaled.law.scale = 1 from rfl]
  simp only [eN]
  congr 2
  · refine sum_congr rfl fun t _ => sum_congr rfl fun r _ => ?_
    rw [eC (P k).law.stiff _ (s * (P k).tempAt (dofs M u (gcell (M.part k) c)))]
  · refine sum_congr rfl fun i _ => sum_congr rfl fun j _ => ?_
    rw [eC (P k).law.cond _ (s * (P k).tempAt (dofs M u (gcell (M.part k) c))), hsc k hk']
    ring

end

theorem scaleT_single (m i : Nat) (s : ℝ) (q : Nat) :
    scaleT m i s (Pi.single q 1) = fun p => (if q % m = i then s else 1) * (Pi.single q 1 : Nat → ℝ) p := by
  funext p
  unfold scaleT
  by_cases e : p = q
  · subst e; rfl
  · rw [Pi.single_eq_of_ne e, mul_zero, mul_zero]

theorem thermoForm_smul (θ : TmLaw ℝ → Nat → ℝ → Nat → ℝ) (M : FeModel) (P : Nat → Tm ℝ) (z x : List ℝ) (u w : Nat → ℝ)
    (a : ℝ) : thermoForm θ M P z x u (fun q => a * w q) = a * thermoForm θ M P z x u w := by
  unfold thermoForm meshForm
  simp only [mul_sum]
  refine sum_congr rfl fun k _ => sum_congr rfl fun c _ => ?_
  have eS : ∀ (P : Tm ℝ) (W : Nat → ℝ) X t, P.strainForm (fun l => a * W l) X t = a * P.strainForm W X t := by
    intro P W X t
    unfold Tm.strainForm voigtStrain fieldGrad
    split_ifs
    · rw [mul_sum]; exact sum_congr rfl fun n _ => by ring
    · rw [mul_add, mul_sum, mul_sum]
      congr 1 <;> exact sum_congr rfl fun n _ => by ring
  have eG : ∀ (P : Tm ℝ) (W : Nat → ℝ) X t, P.gradT (fun l => a * W l) X t = a * P.gradT W X t := by
    intro P W X t
    unfold Tm.gradT scalarField
    rw [mul_sum]; exact sum_congr rfl fun n _ => by ring
  rw [show dofs M (fun q => a * w q) (gcell (M.part k) c) = fun l => a * dofs M w (gcell (M.part k) c) l from rfl]
  unfold cellThermo
  simp only [eS, eG, mul_add, mul_sum]
  congr 1 <;> exact sum_congr rfl fun _ _ => sum_congr rfl fun _ _ => by ring

section
variable {M : FeModel} (hM : M.Ok) {P : Nat → Tm ℝ} (h : TmOk M P) {init init' : Nat → Nat → Nat → Nat}
  {eR eR' : Nat → Nat → List Nat} (heR : ∀ k j, IsSchedule (eR k j) (M.size (M.part k)))
  (heR' : ∀ k j, IsSchedule (eR' k j) (M.size (M.part k)))
  {u u' z x : List ℝ} (hu : u.length = M.nn * M.ndof) (hu' : u'.length = M.nn * M.ndof) (hz : z.length = M.nn)
  (hx : x.length = M.nn * M.dim) {sch sch' : Nat → Nat → List Nat} (hs : SchedOk M sch (M.npc * M.ndof))
  (hs' : SchedOk M sch' (M.npc * M.ndof))
include hM h heR heR' hu hu' hz hx hs hs'

/-- **C61** for tensors that do not depend on temperature and no body loads: the temperature scaling `s` is a
change of the unknowns.  The residual is that of the material without scaling at the temperatures multiplied
by `s`, with the nodal heats multiplied by `s`. -/
theorem C61_scaling_partial {s : ℝ} (hlin : ∀ k, k < M.domains.length → (P k).law.nonlinear = false)
    (hsc : ∀ k, k < M.domains.length → (P k).law.scale = s)
    (hload : ∀ k, k < M.domains.length → (P k).bodyLoads = [])
    (hsu : at0 u' = scaleT M.ndof M.dim s (at0 u)) :
    ∃ r r', M.value (thermoelastic abs M P init eR) sch u z x = .ok r ∧
      M.value (thermoelastic abs M (fun k => (P k).unscaled) init' eR') sch' u' z x = .ok r' ∧
      ∀ q, q < M.nn * M.ndof → at0 r q = (if q % M.ndof = M.dim then s else 1) * at0 r' q := by
  obtain ⟨r, e, -, hw⟩ := static_work hM h (init := init) heR hu hz hx hs
  obtain ⟨r', e', -, hw'⟩ := static_work hM (unscaled_ok h) (init := init') heR' hu' hz hx hs'
  refine ⟨r, r', e, e', fun q hq => ?_⟩
  have hl : ∀ w, loadWork M (fun k => (P k).bodyLoads) z w = 0 := by
    intro w
    unfold loadWork
    refine sum_eq_zero fun k hk => sum_eq_zero fun c _ => ?_
    dsimp only
    rw [hload k (mem_range.1 hk)]
    rfl
  have h1 := hw (Pi.single q 1)
  have h2 := hw' (Pi.single q 1)
  rw [show loadWork M (fun k => (P k).unscaled.bodyLoads) z (Pi.single q 1) = 0 from hl _, work_single hq, sub_zero,
    hsu] at h2
  rw [work_single hq, hl, sub_zero, thermoForm_scaled h hlin hsc, scaleT_single, thermoForm_smul] at h1
  rw [h1, h2]

end

/-! ## The transient problem -/

section
variable {M : FeModel} {P : Nat → Tm ℝ} {z x : List ℝ}

theorem tempAt_lin (P : Tm ℝ) (a b : ℝ) (U V : Nat → ℝ) :
    P.tempAt (fun l => a * U l + b * V l) = a * P.tempAt U + b * P.tempAt V := by
  unfold Tm.tempAt interp
  rw [mul_sum, mul_sum, ← sum_add_distrib]
  exact sum_congr rfl fun n _ => by ring

theorem heatOf_lin (u : Nat → ℝ) (a b : ℝ) (p q w : Nat → ℝ) :
    heatOf M P z x u (fun l => a * p l + b * q l) w = a * heatOf M P z x u p w + b * heatOf M P z x u q w := by
  unfold heatOf cellHeat
  simp only [mul_sum, ← sum_add_distrib]
  refine sum_congr rfl fun k _ => sum_congr rfl fun c _ => ?_
  rw [show dofs M (fun l => a * p l + b * q l) (gcell (M.part k) c) = fun l =>
    a * dofs M p (gcell (M.part k) c) l + b * dofs M q (gcell (M.part k) c) l from rfl, tempAt_lin, rateOf_lin]
  ring

theorem heatOf_symm (u v w : Nat → ℝ) : heatOf M P z x u v w = heatOf M P z x u w v := by
  unfold heatOf cellHeat
  refine sum_congr rfl fun k _ => sum_congr rfl fun c _ => ?_
  rw [rateOf_eq, rateOf_eq _ _ ((P k).tempAt (dofs M w _))]
  ring

theorem heatOf_congr (hM : M.Ok) (h : TmOk M P) {u p q w : Nat → ℝ}
    (hpq : ∀ l, l < M.nn * M.ndof → p l = q l) : heatOf M P z x u p w = heatOf M P z x u q w := by
  unfold heatOf cellHeat
  refine sum_congr rfl fun k hk => sum_congr rfl fun c hc => ?_
  have hdk := h.d k (mem_range.1 hk)
  have : (P k).tempAt (dofs M p (gcell (M.part k) c)) = (P k).tempAt (dofs M q (gcell (M.part k) c)) :=
    tempAt_congr fun l hl => hpq _ (hM.mesh.dof_lt (d := M.ndof) ((hM.domOk k).1 c (mem_range.1 hc)) (l := l)
      (by rw [h.ndof]; rw [hdk] at hl; exact hl))
  rw [this]

end

section
variable {M : FeModel} (hM : M.Ok) {P : Nat → Tm ℝ} (h : TmOk M P) {init : Nat → Nat → Nat → Nat}
  {eR : Nat → List Nat} (heR : ∀ k, IsSchedule (eR k) (M.size (M.part k)))
  {u v z x : List ℝ} (hu : u.length = M.nn * M.ndof) (hv : v.length = M.nn * M.ndof) (hz : z.length = M.nn)
  (hx : x.length = M.nn * M.dim) {sch : Nat → Nat → List Nat} (hs : ParSchedOk M sch (M.npc * M.ndof))
include hM h heR hu hv hz hx hs

/-- **C62**: the residual is that of the steady problem plus the rate of the heat content, if the steady
problem has no body loads. -/
theorem C62_steady_partial (hload : ∀ k, k < M.domains.length → (P k).bodyLoads = [])
    {init' : Nat → Nat → Nat → Nat} {eS : Nat → Nat → List Nat}
    (heS : ∀ k j, IsSchedule (eS k j) (M.size (M.part k)))
    {schS : Nat → Nat → List Nat} (hsS : SchedOk M schS (M.npc * M.ndof)) :
    ∃ r r', parValue M (thermomech abs M P init eR) sch u v z x = .ok r ∧
      M.value (thermoelastic abs M P init' eS) schS u z x = .ok r' ∧
      ∀ q, q < M.nn * M.ndof → at0 r q = at0 r' q + heatOf M P z x (at0 u) (at0 v) (Pi.single q 1) := by
  obtain ⟨r, e, -, hw⟩ := transient_work hM h (init := init) heR hu hv hz hx hs
  obtain ⟨r', e', -, hw'⟩ := static_work hM h (init := init') heS hu hz hx hsS
  refine ⟨r, r', e, e', fun q hq => ?_⟩
  have hl : loadWork M (fun k => (P k).bodyLoads) z (Pi.single q 1) = 0 := by
    unfold loadWork
    refine sum_eq_zero fun k hk => sum_eq_zero fun c _ => ?_
    dsimp only
    rw [hload k (mem_range.1 hk)]
    rfl
  rw [← work_single hq, ← work_single (r := r') hq, hw, hw', hl, sub_zero]

/-- **C62 is false for body loads**: whatever body loads the problem declares, the residual does not contain
them; it is that of the problem without. -/
theorem C62_body_loads_false {init' : Nat → Nat → Nat → Nat} {eR' : Nat → List Nat}
    (heR' : ∀ k, IsSchedule (eR' k) (M.size (M.part k))) {sch' : Nat → Nat → List Nat}
    (hs' : ParSchedOk M sch' (M.npc * M.ndof)) :
    ∃ r r', parValue M (thermomech abs M P init eR) sch u v z x = .ok r ∧
      parValue M (thermomech abs M (fun k => { P k with bodyLoads := [] }) init' eR') sch' u v z x = .ok r' ∧
      ∀ q, q < M.nn * M.ndof → at0 r q = at0 r' q := by
  obtain ⟨r, e, -, hw⟩ := transient_work hM h (init := init) heR hu hv hz hx hs
  have h' : TmOk M fun k => { P k with bodyLoads := [] } :=
    ⟨h.dim, h.ndof, h.d, h.basis, h.law, fun _ _ _ B hB => by cases hB⟩
  obtain ⟨r', e', -, hw'⟩ := transient_work hM h' (init := init') heR' hu hv hz hx hs'
  refine ⟨r, r', e, e', fun q hq => ?_⟩
  rw [← work_single hq, ← work_single (r := r') hq, hw, hw']
  rfl

/-- **C62**, balance: the nodal forces add up to zero in every direction, and the nodal heats to the rate of
the heat content of the body. -/
theorem C62_balance (hdet : ∀ c, c < M.nc → detForm M.dim (M.cellX x c) ≠ 0) {i : Nat} (hi : i < M.ndof) :
    (parValue M (thermomech abs M P init eR) sch u v z x).Sat fun r =>
      ∑ n ∈ range M.nn, at0 r (M.ndof * n + i) = heatOf M P z x (at0 u) (at0 v) (unknown M.ndof i) := by
  refine (transient_work hM h (init := init) heR hu hv hz hx hs).mono ?_
  rintro r ⟨-, hw⟩
  have := hw (unknown M.ndof i)
  rwa [sum_unknown hi, thermoForm_unknown h hM hdet, zero_add] at this

/-- **C62 is false for the temperature scaling**: it is not a change of the unknowns as in the steady problem.
The rate of the heat content is not scaled: the residual with scaling `s` differs from the one the change of
unknowns requires by `1 - s²` times the rate of the heat content. -/
theorem C62_scaling_false {s : ℝ} (hlin : ∀ k, k < M.domains.length → (P k).law.nonlinear = false)
    (hmass : ∀ k, k < M.domains.length → (P k).mass.nonlinear = false)
    (hsc : ∀ k, k < M.domains.length → (P k).law.scale = s)
    {u' v' : List ℝ} (hu' : u'.length = M.nn * M.ndof) (hv' : v'.length = M.nn * M.ndof)
    (hsu : at0 u' = scaleT M.ndof M.dim s (at0 u)) (hsv : at0 v' = scaleT M.ndof M.dim s (at0 v))
    {init' : Nat → Nat → Nat → Nat} {eR' : Nat → List Nat}
    (heR' : ∀ k, IsSchedule (eR' k) (M.size (M.part k))) {sch' : Nat → Nat → List Nat}
    (hs' : ParSchedOk M sch' (M.npc * M.ndof)) :
    ∃ r r', parValue M (thermomech abs M P init eR) sch u v z x = .ok r ∧
      parValue M (thermomech abs M (fun k => (P k).unscaled) init' eR') sch' u' v' z x = .ok r' ∧
      ∀ q, q < M.nn * M.ndof → at0 r q - (if q % M.ndof = M.dim then s else 1) * at0 r' q =
        (1 - s * s) * heatOf M P z x (at0 u) (at0 v) (Pi.single q 1) := by
  obtain ⟨r, e, -, hw⟩ := transient_work hM h (init := init) heR hu hv hz hx hs
  obtain ⟨r', e', -, hw'⟩ := transient_work hM (unscaled_ok h) (init := init') heR' hu' hv' hz hx hs'
  refine ⟨r, r', e, e', fun q hq => ?_⟩
  have eT : ∀ (P' : Tm ℝ) (c : Nat) (w : Nat → ℝ), P'.d = M.dim →
      P'.tempAt (dofs M (scaleT M.ndof M.dim s w) c) = s * P'.tempAt (dofs M w c) := by
    intro P' c w hd
    unfold Tm.tempAt interp
    rw [mul_sum]
    refine sum_congr rfl fun n _ => ?_
    dsimp only
    rw [hd, Nat.mul_comm _ n, scaleT_dofs h _ _ _ _ _ (by omega), if_pos rfl]
    ring
  have hheat : ∀ w, heatOf M (fun k => (P k).unscaled) z x (at0 u') (at0 v') (scaleT M.ndof M.dim s w) =
      s * s * heatOf M P z x (at0 u) (at0 v) w := by
    intro w
    unfold heatOf cellHeat
    simp only [mul_sum]
    refine sum_congr rfl fun k hk => sum_congr rfl fun c _ => ?_
    have hk' := mem_range.1 hk
    have hdk := h.d k hk'
    rw [hsu, hsv, eT (P k).unscaled _ _ hdk, eT (P k).unscaled _ _ hdk, eT (P k).unscaled _ _ hdk]
    rw [show (P k).unscaled.volForm abs (M.cellX x (gcell (M.part k) c)) = (P k).volForm abs (M.cellX x (gcell (M.part k) c)) from rfl,
      show (P k).unscaled.d = (P k).d from rfl, show (P k).unscaled.pen = (P k).pen from rfl,
      show (P k).unscaled.mass = (P k).mass from rfl,
      show ∀ w, (P k).unscaled.tempAt w = (P k).tempAt w from fun _ => rfl,
      show ∀ w, (P k).unscaled.tempAt w = (P k).tempAt w from fun _ => rfl,
      show ∀ w, (P k).unscaled.tempAt w = (P k).tempAt w from fun _ => rfl]
    unfold MassLaw.rateOf
    rw [hmass k hk', if_neg (by simp), if_neg (by simp)]
    ring
  have h2 := hw' (scaleT M.ndof M.dim s (Pi.single q 1))
  have h3 := hw (Pi.single q 1)
  rw [work_single hq, thermoForm_scaled h hlin hsc] at h3
  rw [hheat, hsu] at h2
  have h4 : ∑ p ∈ range (M.nn * M.ndof), at0 r' p * scaleT M.ndof M.dim s (Pi.single q 1) p =
      (if q % M.ndof = M.dim then s else 1) * at0 r' q := by
    rw [scaleT_single, ← work_single (r := r') hq, mul_sum]
    exact sum_congr rfl fun p _ => by ring
  rw [h4] at h2
  rw [h2, h3]
  ring

end

/-! ## The capacity matrix -/

section
variable {M : FeModel} (hM : M.Ok) {P : Nat → Tm ℝ} {penF : Nat → Fad → Fad} (h : TmOk M P)
  {iF : Nat → Nat → Nat → Nat} {eF : Nat → List Nat} (heF : ∀ k, IsSchedule (eF k) (M.size (M.part k)))
  {o : List Nat} (ho : IsSchedule o M.nn) {sch : Nat → Nat → List Nat}
  {u v z x : List ℝ} (hu : u.length = M.nn * M.ndof) (hv : v.length = M.nn * M.ndof) (hz : z.length = M.nn)
  (hx : x.length = M.nn * M.dim) (hgood : ∀ c, c < M.nc → tmGood M P penF (M.cellZ z c) (M.cellX x c))
  (hs : ParSchedOk M sch (M.npc * M.ndof * (M.npc * M.ndof)))
include hM h heF ho hu hv hz hx hgood hs

/-- **C62**: the matrix `gradient_v` returns is the matrix of the rate of the heat content, whatever the rates. -/
theorem C62_capacity :
    (parGradientV M (thermomech Fad.fabs M (fun k => (P k).lift (penF k)) iF eF) o sch u v z x).Sat fun J =>
      J.WF M.nn M.nn ∧ ∀ p w : Nat → ℝ,
        ∑ q ∈ range (M.nn * M.ndof), w q * ∑ j ∈ range (M.nn * M.ndof), J.dense q j * p j =
          heatOf M P z x (at0 u) p w := by
  obtain ⟨v', rfl⟩ := list_eq_ofFn hv
  let eR : Nat → List Nat := fun k => List.range (M.size (M.part k))
  have heR : ∀ k, IsSchedule (eR k) (M.size (M.part k)) := fun k => IsSchedule.range _
  have hsR : ParSchedOk M (seqHyp M) (M.npc * M.ndof) := (seqHyp_ok M).toPar
  obtain ⟨r, J, hr, hJ, hwf, hD⟩ := C62_gradient_v h hM (iR := iF) heR heF ho hu hz hx hgood hs
    (schR := fun _ => seqHyp M) (fun _ => hsR)
  refine ⟨J, hJ, hwf, fun p w => ?_⟩
  exact matrix_of_affine hD (w := w) (B := fun p => heatOf M P z x (at0 u) p w)
    (b0 := thermoForm TmLaw.normalStrain M P z x (at0 u) w)
    (fun a b p q => heatOf_lin (at0 u) a b p q w)
    (fun p q hpq => heatOf_congr hM h hpq) (fun y => by
      obtain ⟨v1, e1, -, e2⟩ := transient_work hM h (init := iF) heR hu (List.length_ofFn (f := y)) hz hx hsR
      rw [(hr y).1] at e1
      cases e1
      rw [e2 w, add_comm]) p

/-- **C62**: the capacity matrix is symmetric. -/
theorem C62_capacity_symmetric :
    (parGradientV M (thermomech Fad.fabs M (fun k => (P k).lift (penF k)) iF eF) o sch u v z x).Sat fun J =>
      ∀ i j, i < M.nn * M.ndof → j < M.nn * M.ndof → J.dense i j = J.dense j i := by
  refine (C62_capacity hM h heF ho hu hv hz hx hgood hs).mono ?_
  rintro J ⟨-, hJ⟩ i j hi hj
  have h1 := hJ (Pi.single j 1) (Pi.single i 1)
  have h2 := hJ (Pi.single i 1) (Pi.single j 1)
  rw [sum_single_left hi, sum_single_right hj] at h1
  rw [sum_single_left hj, sum_single_right hi] at h2
  rw [h1, h2, heatOf_symm]

end

end Plato.Tm
