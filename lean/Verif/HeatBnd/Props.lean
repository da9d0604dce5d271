import Verif.HeatBnd.Value
import Verif.Thermal.Example
import Verif.Tm.Output

/-!
# C81: heat that crosses the boundary

With boundary conditions, the residuals of C57, C58, C61 and C62 do the work of C57, C58, C61 and C62 plus the
surface integrals of the given fluxes and tractions.  The sign of a flux depends on the physics.
-/

namespace Plato.HeatBnd
open Finset Plato Plato.Mech Plato.Thermal Plato.Tm Plato.Dyn
open Plato.Bnd hiding Add

/-! ## Heat conduction -/

theorem total_heat {M : FeModel} (hM : M.Ok) (hn : M.ndof = 1) {F : Faces} (normal : Nat → Nat → Nat → ℝ)
    {B : Conditions} (hB : ∀ C ∈ heatBlocks B, C.Ok M F) (x : List ℝ) :
    ∑ q ∈ range M.nn, blocksForce M F normal x (heatBlocks B) q = surfaceTotal M F normal x B.heat 0 := by
  have hd0 : M.dim ≠ 0 := hM.dim.ne'
  have := bndForce_total hM hd0 normal (hB _ List.mem_cons_self) x (k := 0) Nat.one_pos
  rw [← this, hn]
  refine sum_congr rfl fun q _ => ?_
  simp [blocksForce, heatBlocks]

section
variable {M : FeModel} (hM : M.Ok) {P : Nat → Thermal ℝ} (h : ThermOk M P) {F : Faces} {rule : CubRule ℝ}
  (hr : linearTetCubRule M.dim = .ok rule) (normal : Nat → Nat → Nat → ℝ) {B : Conditions}
  (hB : ∀ C ∈ heatBlocks B, C.Ok M F)
include hM h hr hB

section
variable {eR : Nat → Nat → List Nat} (heR : ∀ k j, IsSchedule (eR k j) (M.size (M.part k)))
  {u z x : List ℝ} (hu : u.length = M.nn * M.ndof) (hz : z.length = M.nn) (hx : x.length = M.nn * M.dim)
  {sch : Nat → Nat → List Nat} (hs : SchedOk M sch (M.npc * M.ndof))
include heR hu hz hx hs

/-- **C81**, steady heat conduction, virtual work: on every virtual temperature the residual does the work of
conduction, less the heat supplied in the volume, plus the surface integral of the given fluxes. -/
theorem C81_steady_work :
    (M.value (withBoundary M (thermostatic abs M P eR) (loadBlocks M.dim M.c2n F normal rule.weight (heatBlocks B)))
      sch u z x).Sat fun r => r.length = M.nn * M.ndof ∧ ∀ W : List ℝ,
        ∑ q ∈ range (M.nn * M.ndof), at0 r q * at0 W q = conduction M P z x (at0 u) (at0 W) - source M P z (at0 W) +
          surfaceWork M F normal x ⟨1, 1, 0⟩ B.heat W := by
  obtain ⟨v0, e0, -, hw⟩ := C57_work hM h heR hu hz hx hs
  refine (blocks_value hM h.dim hr normal hB hu hz hx (fun s z x r => ?_) hs e0).mono ?_
  · unfold thermostatic
    rw [FeModel.part, if_neg (lt_irrefl _)]
  · rintro r ⟨hl, hq⟩
    refine ⟨hl, fun W => ?_⟩
    rw [sum_congr rfl fun q _ => by rw [hq q, add_mul], sum_add_distrib, hw, blocksForce_work hM normal hB]
    simp [heatBlocks]

/-- **C81**, steady heat conduction, balance: the entries of the residual add up to the fluxes times the areas of
their faces, less the heat supplied in the volume.  In a solution without other boundary conditions the given fluxes
carry away what the volume supplies: they are fluxes out of the body. -/
theorem C81_steady_balance (hdet : ∀ c, c < M.nc → detForm M.dim (M.cellX x c) ≠ 0) :
    (M.value (withBoundary M (thermostatic abs M P eR) (loadBlocks M.dim M.c2n F normal rule.weight (heatBlocks B)))
      sch u z x).Sat fun r =>
        ∑ q ∈ range M.nn, at0 r q = surfaceTotal M F normal x B.heat 0 - source M P z fun _ => 1 := by
  obtain ⟨v0, e0, hw⟩ := C57_balance hM h hdet heR hu hz hx hs
  refine (blocks_value hM h.dim hr normal hB hu hz hx (fun s z x r => ?_) hs e0).mono ?_
  · unfold thermostatic
    rw [FeModel.part, if_neg (lt_irrefl _)]
  · rintro r ⟨-, hq⟩
    rw [sum_congr rfl fun q _ => hq q, sum_add_distrib, hw, total_heat hM h.ndof normal hB]
    ring

end

section
variable {eR : Nat → List Nat} (heR : ∀ k, IsSchedule (eR k) (M.size (M.part k)))
  {u v z x : List ℝ} (hu : u.length = M.nn * M.ndof) (hv : v.length = M.nn * M.ndof) (hz : z.length = M.nn)
  (hx : x.length = M.nn * M.dim) {sch : Nat → Nat → List Nat} (hs : ParSchedOk M sch (M.npc * M.ndof))
include heR hu hv hz hx hs

/-- **C81**, transient heat conduction, virtual work, for conductivities that do not depend on temperature (as
C58). -/
theorem C81_transient_work_partial (hlin : ∀ k, k < M.domains.length → (P k).law.nonlinear = false) :
    (parValue M (parWithBoundary M (heatEquation abs M P eR) (loadBlocks M.dim M.c2n F normal rule.weight (heatBlocks B)))
      sch u v z x).Sat fun r => r.length = M.nn * M.ndof ∧ ∀ W : List ℝ,
        ∑ q ∈ range (M.nn * M.ndof), at0 r q * at0 W q = conduction M P z x (at0 u) (at0 W) +
          storage M P z x (at0 u) (at0 v) (at0 W) + surfaceWork M F normal x ⟨1, 1, 0⟩ B.heat W := by
  obtain ⟨v0, e0, -, hw⟩ := C58_work_partial hM h heR hu hv hz hx hs hlin
  refine (blocks_parValue hM h.dim hr normal hB hu hz hx hv (heatEquation_rowR h heR) hs e0).mono ?_
  rintro r ⟨hl, hq⟩
  refine ⟨hl, fun W => ?_⟩
  rw [sum_congr rfl fun q _ => by rw [hq q, add_mul], sum_add_distrib, hw, blocksForce_work hM normal hB]
  simp [heatBlocks]

/-- **C81**, transient heat conduction, balance, for all conductivities: the entries of the residual add up to the
rate of the heat content plus the fluxes times the areas of their faces: in a solution without other boundary
conditions the body loses the given fluxes. -/
theorem C81_transient_balance (hdet : ∀ c, c < M.nc → detForm M.dim (M.cellX x c) ≠ 0)
    (hbasis : ∀ k, k < M.domains.length → ∑ n ∈ range (M.dim + 1), at0 (P k).basis n = 1) :
    (parValue M (parWithBoundary M (heatEquation abs M P eR) (loadBlocks M.dim M.c2n F normal rule.weight (heatBlocks B)))
      sch u v z x).Sat fun r => ∑ q ∈ range M.nn, at0 r q =
        (∑ k ∈ range M.domains.length, ∑ c ∈ range (M.size (M.part k)),
          (P k).volForm abs (M.cellX x (gcell (M.part k) c)) *
            (P k).pen (meanDensity (M.dim + 1) (M.cellZ z (gcell (M.part k) c))) *
            (P k).mass.rateOf ((P k).point (onCell M (at0 u) (gcell (M.part k) c)))
              ((P k).point (onCell M (at0 v) (gcell (M.part k) c)))) + surfaceTotal M F normal x B.heat 0 := by
  obtain ⟨v0, e0, hw⟩ := C58_balance hM h heR hu hv hz hx hs hdet hbasis
  refine (blocks_parValue hM h.dim hr normal hB hu hz hx hv (heatEquation_rowR h heR) hs e0).mono ?_
  rintro r ⟨-, hq⟩
  rw [sum_congr rfl fun q _ => hq q, sum_add_distrib, hw, total_heat hM h.ndof normal hB]

end

end

/-! ## Thermomechanics -/

/-- Totals of the members of thermomechanics: of the tractions in a direction, of the fluxes for the temperature. -/
noncomputable def thermoTotal (M : FeModel) (F : Faces) (normal : Nat → Nat → Nat → ℝ) (x : List ℝ) (B : Conditions)
    (i : Nat) : ℝ :=
  if i < M.dim then surfaceTotal M F normal x B.mech i else surfaceTotal M F normal x B.heat 0

theorem total_thermo {M : FeModel} (hM : M.Ok) (hn : M.ndof = M.dim + 1) {F : Faces} (normal : Nat → Nat → Nat → ℝ)
    {B : Conditions} (hB : ∀ C ∈ thermoBlocks M.dim B, C.Ok M F) (x : List ℝ) {i : Nat} (hi : i < M.ndof) :
    ∑ n ∈ range M.nn, blocksForce M F normal x (thermoBlocks M.dim B) (M.ndof * n + i) =
      -thermoTotal M F normal x B i := by
  have hd0 : M.dim ≠ 0 := hM.dim.ne'
  have h1 := hB ⟨⟨M.dim, M.dim + 1, 0⟩, -1, B.mech, B.init, B.orders⟩ (by simp [thermoBlocks])
  have h2 := hB ⟨⟨1, M.dim + 1, M.dim⟩, -1, B.heat, B.initT, B.ordersT⟩ (by simp [thermoBlocks])
  have e : ∀ n, blocksForce M F normal x (thermoBlocks M.dim B) (M.ndof * n + i) =
      -bndForce M.dim ⟨M.dim, M.dim + 1, 0⟩ F normal x B.mech (M.ndof * n + i) -
        bndForce M.dim ⟨1, M.dim + 1, M.dim⟩ F normal x B.heat (M.ndof * n + i) := by
    intro n
    simp [blocksForce, thermoBlocks]
    ring
  rw [sum_congr rfl fun n _ => e n, sum_sub_distrib, sum_neg_distrib]
  unfold thermoTotal
  by_cases hid : i < M.dim
  · have t1 := bndForce_total hM hd0 normal h1 x (k := i) hid
    simp only [Nat.add_zero] at t1
    rw [if_pos hid, t1, sum_eq_zero fun n _ => bndForce_other normal h2 x hi (.inl hid), sub_zero]
  · have t2 := bndForce_total hM hd0 normal h2 x (k := 0) Nat.one_pos
    simp only [Nat.zero_add] at t2
    have ei : i = M.dim := by omega
    rw [if_neg hid, sum_eq_zero fun n _ => bndForce_other normal h1 x hi (.inr (by simpa using not_lt.1 hid))]
    rw [ei, t2]
    ring

section
variable {M : FeModel} (hM : M.Ok) {P : Nat → Tm ℝ} (h : TmOk M P) {init : Nat → Nat → Nat → Nat} {F : Faces}
  {rule : CubRule ℝ} (hr : linearTetCubRule M.dim = .ok rule) (normal : Nat → Nat → Nat → ℝ) {B : Conditions}
  (hB : ∀ C ∈ thermoBlocks M.dim B, C.Ok M F)
include hM h hr hB

section
variable {eR : Nat → Nat → List Nat} (heR : ∀ k j, IsSchedule (eR k j) (M.size (M.part k)))
  {u z x : List ℝ} (hu : u.length = M.nn * M.ndof) (hz : z.length = M.nn) (hx : x.length = M.nn * M.dim)
  {sch : Nat → Nat → List Nat} (hs : SchedOk M sch (M.npc * M.ndof))
include heR hu hz hx hs

/-- **C81**, steady thermomechanics, virtual work, for materials without shear expansion (as C61): the residual does
the work of stress and flux less the work of the body loads, the tractions and the given fluxes. -/
theorem C81_thermo_work_partial (h0 : ∀ k T i j, k < M.domains.length → i < M.dim → j < M.dim → i ≠ j →
      (P k).law.expand.at (P k).law.nonlinear T i j = 0) :
    (M.value (withBoundary M (thermoelastic abs M P init eR)
      (loadBlocks M.dim M.c2n F normal rule.weight (thermoBlocks M.dim B))) sch u z x).Sat fun r =>
        r.length = M.nn * M.ndof ∧ ∀ W : List ℝ, ∑ q ∈ range (M.nn * M.ndof), at0 r q * at0 W q =
          thermoForm expansion M P z x (at0 u) (at0 W) - loadWork M (fun k => (P k).bodyLoads) z (at0 W) -
            surfaceWork M F normal x ⟨M.dim, M.dim + 1, 0⟩ B.mech W -
            surfaceWork M F normal x ⟨1, M.dim + 1, M.dim⟩ B.heat W := by
  obtain ⟨v0, e0, -, hw⟩ := C61_work_partial hM h (init := init) heR hu hz hx hs h0
  refine (blocks_value hM (.inr h.dim) hr normal hB hu hz hx (fun s z x r => ?_) hs e0).mono ?_
  · unfold thermoelastic
    rw [FeModel.part, if_neg (lt_irrefl _)]
  · rintro r ⟨hl, hq⟩
    refine ⟨hl, fun W => ?_⟩
    rw [sum_congr rfl fun q _ => by rw [hq q, add_mul], sum_add_distrib, hw, blocksForce_work hM normal hB]
    simp [thermoBlocks]
    ring

/-- **C81**, steady thermomechanics, balance, for all materials: in every direction the nodal forces add up to minus
the resultant of tractions and body loads, and the nodal heats to minus the given fluxes and the heat supplied.  In a
solution without other boundary conditions fluxes and supply balance: they are fluxes into the body. -/
theorem C81_thermo_balance (hdet : ∀ c, c < M.nc → detForm M.dim (M.cellX x c) ≠ 0) {i : Nat} (hi : i < M.ndof) :
    (M.value (withBoundary M (thermoelastic abs M P init eR)
      (loadBlocks M.dim M.c2n F normal rule.weight (thermoBlocks M.dim B))) sch u z x).Sat fun r =>
        ∑ n ∈ range M.nn, at0 r (M.ndof * n + i) =
          -loadWork M (fun k => (P k).bodyLoads) z (unknown M.ndof i) - thermoTotal M F normal x B i := by
  obtain ⟨v0, e0, hw⟩ := C61_balance hM h (init := init) heR hu hz hx hs hdet hi
  refine (blocks_value hM (.inr h.dim) hr normal hB hu hz hx (fun s z x r => ?_) hs e0).mono ?_
  · unfold thermoelastic
    rw [FeModel.part, if_neg (lt_irrefl _)]
  · rintro r ⟨-, hq⟩
    rw [sum_congr rfl fun n _ => hq _, sum_add_distrib, hw, total_thermo hM h.ndof normal hB x hi]
    ring

end

section
variable {eR : Nat → List Nat} (heR : ∀ k, IsSchedule (eR k) (M.size (M.part k)))
  {u v z x : List ℝ} (hu : u.length = M.nn * M.ndof) (hv : v.length = M.nn * M.ndof) (hz : z.length = M.nn)
  (hx : x.length = M.nn * M.dim) {sch : Nat → Nat → List Nat} (hs : ParSchedOk M sch (M.npc * M.ndof))
include heR hu hv hz hx hs

/-- **C81**, transient thermomechanics, virtual work, for materials without shear expansion (as C62). -/
theorem C81_thermo_transient_work_partial (h0 : ∀ k T i j, k < M.domains.length → i < M.dim → j < M.dim → i ≠ j →
      (P k).law.expand.at (P k).law.nonlinear T i j = 0) :
    (parValue M (parWithBoundary M (thermomech abs M P init eR)
      (loadBlocks M.dim M.c2n F normal rule.weight (thermoBlocks M.dim B))) sch u v z x).Sat fun r =>
        r.length = M.nn * M.ndof ∧ ∀ W : List ℝ, ∑ q ∈ range (M.nn * M.ndof), at0 r q * at0 W q =
          thermoForm expansion M P z x (at0 u) (at0 W) + heatOf M P z x (at0 u) (at0 v) (at0 W) -
            surfaceWork M F normal x ⟨M.dim, M.dim + 1, 0⟩ B.mech W -
            surfaceWork M F normal x ⟨1, M.dim + 1, M.dim⟩ B.heat W := by
  obtain ⟨v0, e0, -, hw⟩ := C62_work_partial hM h (init := init) heR hu hv hz hx hs h0
  refine (blocks_parValue hM (.inr h.dim) hr normal hB hu hz hx hv (thermomech_rowR h (init := init) heR) hs e0).mono ?_
  rintro r ⟨hl, hq⟩
  refine ⟨hl, fun W => ?_⟩
  rw [sum_congr rfl fun q _ => by rw [hq q, add_mul], sum_add_distrib, hw, blocksForce_work hM normal hB]
  simp [thermoBlocks]
  ring

/-- **C81**, transient thermomechanics, balance, for all materials: the nodal forces add up to minus the resultant of
the tractions, the nodal heats to the rate of the heat content less the given fluxes: in a solution without other
boundary conditions the body gains the given fluxes. -/
theorem C81_thermo_transient_balance (hdet : ∀ c, c < M.nc → detForm M.dim (M.cellX x c) ≠ 0) {i : Nat}
    (hi : i < M.ndof) :
    (parValue M (parWithBoundary M (thermomech abs M P init eR)
      (loadBlocks M.dim M.c2n F normal rule.weight (thermoBlocks M.dim B))) sch u v z x).Sat fun r =>
        ∑ n ∈ range M.nn, at0 r (M.ndof * n + i) =
          heatOf M P z x (at0 u) (at0 v) (unknown M.ndof i) - thermoTotal M F normal x B i := by
  obtain ⟨v0, e0, hw⟩ := C62_balance hM h (init := init) heR hu hv hz hx hs hdet hi
  refine (blocks_parValue hM (.inr h.dim) hr normal hB hu hz hx hv (thermomech_rowR h (init := init) heR) hs e0).mono ?_
  rintro r ⟨-, hq⟩
  rw [sum_congr rfl fun n _ => hq _, sum_add_distrib, hw, total_thermo hM h.ndof normal hB x hi]
  ring

end

end

/-! ## The sign of a flux -/

/-- **C81 is false for the sign**: the same flux has opposite signs in heat conduction and in thermomechanics.  On the
same mesh, with the same fluxes and without heat supplied in the volume, the nodal heats of the steady residuals add
up to `Q` in heat conduction and to `-Q` in thermomechanics, for all materials and states. -/
theorem C81_sign_false {M₁ M₂ : FeModel} (hM₁ : M₁.Ok) (hM₂ : M₂.Ok) (hdim : M₁.dim = M₂.dim)
    {P : Nat → Thermal ℝ} (h₁ : ThermOk M₁ P) {T : Nat → Tm ℝ} (h₂ : TmOk M₂ T)
    (hl₁ : ∀ k, k < M₁.domains.length → (P k).bodyLoads = []) (hl₂ : ∀ k, k < M₂.domains.length → (T k).bodyLoads = [])
    {init : Nat → Nat → Nat → Nat} {F : Faces} {rule : CubRule ℝ} (hr : linearTetCubRule M₁.dim = .ok rule)
    (normal : Nat → Nat → Nat → ℝ) {B : Conditions} (hB₁ : ∀ C ∈ heatBlocks B, C.Ok M₁ F)
    (hB₂ : ∀ C ∈ thermoBlocks M₂.dim B, C.Ok M₂ F)
    {e₁ e₂ : Nat → Nat → List Nat} (he₁ : ∀ k j, IsSchedule (e₁ k j) (M₁.size (M₁.part k)))
    (he₂ : ∀ k j, IsSchedule (e₂ k j) (M₂.size (M₂.part k))) {u₁ u₂ z₁ z₂ x : List ℝ}
    (hu₁ : u₁.length = M₁.nn * M₁.ndof) (hu₂ : u₂.length = M₂.nn * M₂.ndof) (hz₁ : z₁.length = M₁.nn)
    (hz₂ : z₂.length = M₂.nn) (hx₁ : x.length = M₁.nn * M₁.dim) (hx₂ : x.length = M₂.nn * M₂.dim)
    {s₁ s₂ : Nat → Nat → List Nat} (hs₁ : SchedOk M₁ s₁ (M₁.npc * M₁.ndof)) (hs₂ : SchedOk M₂ s₂ (M₂.npc * M₂.ndof))
    (hdet₁ : ∀ c, c < M₁.nc → detForm M₁.dim (M₁.cellX x c) ≠ 0)
    (hdet₂ : ∀ c, c < M₂.nc → detForm M₂.dim (M₂.cellX x c) ≠ 0) :
    ∃ r₁ r₂, M₁.value (withBoundary M₁ (thermostatic abs M₁ P e₁)
        (loadBlocks M₁.dim M₁.c2n F normal rule.weight (heatBlocks B))) s₁ u₁ z₁ x = .ok r₁ ∧
      M₂.value (withBoundary M₂ (thermoelastic abs M₂ T init e₂)
        (loadBlocks M₂.dim M₂.c2n F normal rule.weight (thermoBlocks M₂.dim B))) s₂ u₂ z₂ x = .ok r₂ ∧
      ∑ q ∈ range M₁.nn, at0 r₁ q = surfaceTotal M₁ F normal x B.heat 0 ∧
      ∑ n ∈ range M₂.nn, at0 r₂ (M₂.ndof * n + M₂.dim) = -surfaceTotal M₁ F normal x B.heat 0 := by
  obtain ⟨r₁, q₁, w₁⟩ := C81_steady_balance hM₁ h₁ hr normal hB₁ he₁ hu₁ hz₁ hx₁ hs₁ hdet₁
  have hi : M₂.dim < M₂.ndof := by rw [h₂.ndof]; omega
  obtain ⟨r₂, q₂, w₂⟩ := C81_thermo_balance hM₂ h₂ (init := init) (by rw [← hdim]; exact hr) normal hB₂ he₂ hu₂ hz₂ hx₂
    hs₂ hdet₂ hi
  refine ⟨r₁, r₂, q₁, q₂, ?_, ?_⟩
  · rw [w₁]
    have : source M₁ P z₁ (fun _ => 1) = 0 := by
      unfold source
      refine sum_eq_zero fun k hk => sum_eq_zero fun c _ => ?_
      rw [hl₁ k (mem_range.1 hk)]
      rfl
    rw [this, sub_zero]
  · rw [w₂]
    have : loadWork M₂ (fun k => (T k).bodyLoads) z₂ (unknown M₂.ndof M₂.dim) = 0 := by
      unfold loadWork
      refine sum_eq_zero fun k hk => sum_eq_zero fun c _ => ?_
      dsimp only
      rw [hl₂ k (mem_range.1 hk)]
      rfl
    rw [this]
    unfold thermoTotal surfaceTotal
    rw [if_neg (lt_irrefl _), hdim, neg_zero, zero_sub]

/-! ## Example: a flux through the right edge of a square -/

/-- The edges of the square of `plate` and `slab`. -/
def quadFaces : Faces :=
  ⟨[0, 1, 1, 2, 2, 0, 1, 3, 3, 2], [0, 1, 3, 4, 5, 6], [0, 0, 1, 0, 1, 1], [0, 1, 2, 3, 4, 1]⟩

/-- A flux of 5 through the edge from node 1 to node 3, and a traction there. -/
noncomputable def squareB : Conditions :=
  ⟨[.load [3] fun k => k], [.load [3] fun _ => 5], fun _ _ _ => 0, fun _ => [0], fun _ _ _ => 0, fun _ => [0]⟩

theorem square_facesOk : FacesOk 2 2 slab.c2n quadFaces [3] where
  up := by decide
  mono := by decide
  upCells := by decide
  f2n := by decide
  cell := by decide
  sub := by
    intro f hf c hc i hi
    simp only [List.mem_singleton] at hf
    subst hf
    have hc : c = 1 := by
      revert c
      decide
    subst hc
    interval_cases i
    · exact ⟨0, by decide, by decide⟩
    · exact ⟨1, by decide, by decide⟩

theorem square_bcsOk (fl : Nat → ℝ) : BCsOk 2 2 slab.c2n quadFaces [.load [3] fl] where
  faces := by
    intro B hB
    rw [List.mem_singleton.1 hB]
    exact square_facesOk
  c2f := by decide
  sides := by
    intro B hB hp
    rw [List.mem_singleton.1 hB] at hp
    exact absurd hp (by simp [NaturalBC.isPressure])

theorem square_orders (fl : Nat → ℝ) (b : Nat) (C : NaturalBC) (h : [NaturalBC.load [3] fl][b]? = some C) :
    IsSchedule [0] C.set.length := by
  cases b with
  | zero =>
    simp at h
    subst h
    exact IsSchedule.range 1
  | succ b => simp at h

theorem square_heat : ∀ C ∈ heatBlocks squareB, C.Ok plate quadFaces := by
  intro C hC
  rw [List.mem_singleton.1 hC]
  exact ⟨by decide, rfl, square_bcsOk _, square_orders _⟩

theorem square_thermo : ∀ C ∈ thermoBlocks 2 squareB, C.Ok slab quadFaces := by
  intro C hC
  simp only [thermoBlocks, List.mem_cons, List.not_mem_nil, or_false] at hC
  rcases hC with rfl | rfl
  · exact ⟨by decide, rfl, square_bcsOk _, square_orders _⟩
  · exact ⟨by decide, rfl, square_bcsOk _, square_orders _⟩

theorem quad_total (normal : Nat → Nat → Nat → ℝ) : surfaceTotal plate quadFaces normal slabX squareB.heat 0 = 5 := by
  have hc : quadFaces.cellsOf 3 = [1] := by decide
  have n0 : quadFaces.node 2 3 0 = 1 := by decide
  have n1 : quadFaces.node 2 3 1 = 3 := by decide
  have ha : faceArea 2 (quadFaces.coords 2 slabX 3) = 1 := by
    have h := C48_weight_area (d := 2) (by omega) 2 (quadFaces.coords 2 slabX 3)
    have hw : weightForm Real.sqrt 2 (2 * (1 / (Nat.factorial 2 : ℝ))) (quadFaces.coords 2 slabX 3) = 1 := by
      norm_num [weightForm, Faces.coords, n0, n1, slabX, at0, Nat.factorial]
    rw [hw] at h
    push_cast at h
    linarith
  have e : surfaceTotal plate quadFaces normal slabX squareB.heat 0 = 5 * faceArea 2 (quadFaces.coords 2 slabX 3) := by
    unfold surfaceTotal squareB
    simp only [List.map_singleton, List.sum_singleton, NaturalBC.set, hc]
    rfl
  rw [e, ha, mul_one]

/-- The plate of `Thermal.Example` and the slab of `Tm.Output` meet the hypotheses of `C81_sign_false`, so of the
balances, and of the work theorems: with a flux of 5 through an edge of length 1 the nodal heats add up to 5 and to
-5, whatever the temperatures. -/
example (normal : Nat → Nat → Nat → ℝ) (u₁ u₂ : List ℝ) (h₁ : u₁.length = 4) (h₂ : u₂.length = 12)
    {rule : CubRule ℝ} (hr : linearTetCubRule 2 = .ok rule) :
    ∃ r₁ r₂, plate.value (withBoundary plate
        (thermostatic abs plate (fun k => exThermal 2 (plateLaw k) plateMass) fun k _ => List.range (plate.size (plate.part k)))
        (loadBlocks 2 plate.c2n quadFaces normal rule.weight (heatBlocks squareB)))
        (seqSched plate (plate.npc * plate.ndof)) u₁ [1, 1, 1, 1] slabX = .ok r₁ ∧
      slab.value (withBoundary slab (thermoelastic abs slab (fun _ => slabTm (fun i j => if i = j then 2 - i else 0) 0 1)
        (fun _ _ _ => 0) fun k _ => List.range (slab.size (slab.part k)))
        (loadBlocks 2 slab.c2n quadFaces normal rule.weight (thermoBlocks 2 squareB)))
        (seqSched slab (slab.npc * slab.ndof)) u₂ [1, 1, 1, 1] slabX = .ok r₂ ∧
      ∑ q ∈ range 4, at0 r₁ q = 5 ∧ ∑ n ∈ range 4, at0 r₂ (3 * n + 2) = -5 := by
  have h := C81_sign_false plate_ok slab_ok rfl (P := fun k => exThermal 2 (plateLaw k) plateMass)
    ⟨.inr (.inl rfl), rfl, fun _ _ => rfl, fun _ _ => rfl, fun _ _ _ B hB => by cases hB⟩
    (slabTm_ok (fun i j => if i = j then 2 - i else 0) 0 1) (fun _ _ => rfl) (fun _ _ => rfl) (init := fun _ _ _ => 0)
    (rule := rule) hr normal square_heat square_thermo (e₁ := fun k _ => List.range (plate.size (plate.part k)))
    (e₂ := fun k _ => List.range (slab.size (slab.part k))) (fun _ _ => IsSchedule.range _) (fun _ _ => IsSchedule.range _)
    (u₁ := u₁) (u₂ := u₂) (z₁ := [1, 1, 1, 1]) (z₂ := [1, 1, 1, 1]) (x := slabX) h₁ h₂ rfl rfl rfl rfl
    (seqSched_ok plate (plate.npc * plate.ndof)) (seqSched_ok slab (slab.npc * slab.ndof))
    (fun c hc => slab_det (c := c) hc) (fun c hc => slab_det (c := c) hc)
  obtain ⟨r₁, r₂, e₁, e₂, q₁, q₂⟩ := h
  rw [quad_total] at q₁ q₂
  exact ⟨r₁, r₂, e₁, e₂, q₁, q₂⟩

end Plato.HeatBnd
