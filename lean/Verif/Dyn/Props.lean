import Verif.Dyn.Form

/-!
# Structural dynamics

C59: work of the residual, its derivatives, stiffness, damping and mass matrices, and the balance of energy.
-/

namespace Plato.Dyn
open Finset Plato Plato.Mech Plato.Thermal

/-! ## Derivatives -/

section
variable {M : FeModel} (hM : M.Ok) {P : Nat → Dyn ℝ} {penF : Nat → Fad → Fad} (h : DynOk M P)
  {initR initF : Nat → Nat → Nat → Nat} {eR eF : Nat → Nat → List Nat}
  (heR : ∀ k j, IsSchedule (eR k j) (M.size (M.part k)))
  (heF : ∀ k j, IsSchedule (eF k j) (M.size (M.part k)))
  {o : List Nat} (ho : IsSchedule o M.nn) {sch : Nat → Nat → List Nat}
include hM h heR heF ho

/-- **C59**: `gradient_u` is the derivative of `value` with respect to the displacement. -/
theorem C59_gradient_u {u : Fin (M.nn * M.ndof) → ℝ} {v a z x : List ℝ} (hv : v.length = M.nn * M.ndof)
    (ha : a.length = M.nn * M.ndof) (hz : z.length = M.nn) (hx : x.length = M.nn * M.dim)
    (hgood : ∀ c, c < M.nc → goodCell M (fun k => (P k).el) penF (M.cellZ z c) (M.cellX x c))
    (hs : HypSchedOk M sch (M.npc * M.ndof * (M.npc * M.ndof)))
    {schR : (Fin (M.nn * M.ndof) → ℝ) → Nat → Nat → List Nat}
    (hsR : ∀ y, HypSchedOk M (schR y) (M.npc * M.ndof)) :
    ∃ (r : (Fin (M.nn * M.ndof) → ℝ) → List ℝ) (J : Crs ℝ),
      (∀ y, hypValue M (dynamics abs M P initR eR) (schR y) (List.ofFn y) v a z x = .ok (r y) ∧
        (r y).length = M.nn * M.ndof) ∧
      hypGradientU M (dynamics Fad.fabs M (fun k => (P k).lift (penF k)) initF eF) o sch (List.ofFn u) v a z x =
        .ok J ∧ J.WF M.nn M.nn ∧
      ∀ q, q < M.nn * M.ndof →
        HasFDerivAt (fun y => at0 (r y) q) (lin (M.nn * M.ndof) fun j => J.dense q j) u :=
  hyp_gradient_u hM (dynamics_rowR h heR) (dynamics_rowF h heF) (goodCell_local h.el) ho hv ha hz hx hgood
    (dynamics_tracks h u) hs hsR

/-- **C59**: `gradient_v` is the derivative of `value` with respect to the velocity. -/
theorem C59_gradient_v {v : Fin (M.nn * M.ndof) → ℝ} {u a z x : List ℝ} (hu : u.length = M.nn * M.ndof)
    (ha : a.length = M.nn * M.ndof) (hz : z.length = M.nn) (hx : x.length = M.nn * M.dim)
    (hgood : ∀ c, c < M.nc → goodCell M (fun k => (P k).el) penF (M.cellZ z c) (M.cellX x c))
    (hs : HypSchedOk M sch (M.npc * M.ndof * (M.npc * M.ndof)))
    {schR : (Fin (M.nn * M.ndof) → ℝ) → Nat → Nat → List Nat}
    (hsR : ∀ y, HypSchedOk M (schR y) (M.npc * M.ndof)) :
    ∃ (r : (Fin (M.nn * M.ndof) → ℝ) → List ℝ) (J : Crs ℝ),
      (∀ y, hypValue M (dynamics abs M P initR eR) (schR y) u (List.ofFn y) a z x = .ok (r y) ∧
        (r y).length = M.nn * M.ndof) ∧
      hypGradientV M (dynamics Fad.fabs M (fun k => (P k).lift (penF k)) initF eF) o sch u (List.ofFn v) a z x =
        .ok J ∧ J.WF M.nn M.nn ∧
      ∀ q, q < M.nn * M.ndof →
        HasFDerivAt (fun y => at0 (r y) q) (lin (M.nn * M.ndof) fun j => J.dense q j) v :=
  hyp_gradient_v hM (dynamics_rowR h heR) (dynamics_rowF h heF) (goodCell_local h.el) ho hu ha hz hx hgood
    (dynamics_tracks h v) hs hsR

/-- **C59**: `gradient_a` is the derivative of `value` with respect to the acceleration. -/
theorem C59_gradient_a {a : Fin (M.nn * M.ndof) → ℝ} {u v z x : List ℝ} (hu : u.length = M.nn * M.ndof)
    (hv : v.length = M.nn * M.ndof) (hz : z.length = M.nn) (hx : x.length = M.nn * M.dim)
    (hgood : ∀ c, c < M.nc → goodCell M (fun k => (P k).el) penF (M.cellZ z c) (M.cellX x c))
    (hs : HypSchedOk M sch (M.npc * M.ndof * (M.npc * M.ndof)))
    {schR : (Fin (M.nn * M.ndof) → ℝ) → Nat → Nat → List Nat}
    (hsR : ∀ y, HypSchedOk M (schR y) (M.npc * M.ndof)) :
    ∃ (r : (Fin (M.nn * M.ndof) → ℝ) → List ℝ) (J : Crs ℝ),
      (∀ y, hypValue M (dynamics abs M P initR eR) (schR y) u v (List.ofFn y) z x = .ok (r y) ∧
        (r y).length = M.nn * M.ndof) ∧
      hypGradientA M (dynamics Fad.fabs M (fun k => (P k).lift (penF k)) initF eF) o sch u v (List.ofFn a) z x =
        .ok J ∧ J.WF M.nn M.nn ∧
      ∀ q, q < M.nn * M.ndof →
        HasFDerivAt (fun y => at0 (r y) q) (lin (M.nn * M.ndof) fun j => J.dense q j) a :=
  hyp_gradient_a hM (dynamics_rowR h heR) (dynamics_rowF h heF) (goodCell_local h.el) ho hu hv hz hx hgood
    (dynamics_tracks h a) hs hsR

/-- **C59**: derivative with respect to the control. -/
theorem C59_gradient_z {z : Fin M.nn → ℝ} {u v a x : List ℝ} (hu : u.length = M.nn * M.ndof)
    (hv : v.length = M.nn * M.ndof) (ha : a.length = M.nn * M.ndof) (hx : x.length = M.nn * M.dim)
    (hgood : ∀ c, c < M.nc → goodCell M (fun k => (P k).el) penF (M.cellZ (List.ofFn z) c) (M.cellX x c))
    (hs : HypSchedOk M sch (M.npc * M.ndof * (M.npc * 1)))
    {schR : (Fin M.nn → ℝ) → Nat → Nat → List Nat} (hsR : ∀ y, HypSchedOk M (schR y) (M.npc * M.ndof)) :
    ∃ (r : (Fin M.nn → ℝ) → List ℝ) (J : Crs ℝ),
      (∀ y, hypValue M (dynamics abs M P initR eR) (schR y) u v a (List.ofFn y) x = .ok (r y) ∧
        (r y).length = M.nn * M.ndof) ∧
      hypGradientZ M (dynamics Fad.fabs M (fun k => (P k).lift (penF k)) initF eF) o sch u v a (List.ofFn z) x =
        .ok J ∧ J.WF M.nn M.nn ∧
      ∀ q, HasFDerivAt (fun y => at0 (r y) q) (lin M.nn fun j => J.dense j q) z :=
  hyp_gradient_z hM (dynamics_rowR h heR) (dynamics_rowF h heF) (goodCell_local h.el) ho hu hv ha hx hgood
    (dynamics_tracks h z) hs hsR

/-- **C59**: derivative with respect to the node coordinates; the weights of the body loads, which the code
computes from the mesh (C43), are held fixed. -/
theorem C59_gradient_x {x : Fin (M.nn * M.dim) → ℝ} {u v a z : List ℝ} (hu : u.length = M.nn * M.ndof)
    (hv : v.length = M.nn * M.ndof) (ha : a.length = M.nn * M.ndof) (hz : z.length = M.nn)
    (hgood : ∀ c, c < M.nc → goodCell M (fun k => (P k).el) penF (M.cellZ z c) (M.cellX (List.ofFn x) c))
    (hs : HypSchedOk M sch (M.npc * M.ndof * (M.npc * M.dim)))
    {schR : (Fin (M.nn * M.dim) → ℝ) → Nat → Nat → List Nat}
    (hsR : ∀ y, HypSchedOk M (schR y) (M.npc * M.ndof)) :
    ∃ (r : (Fin (M.nn * M.dim) → ℝ) → List ℝ) (J : Crs ℝ),
      (∀ y, hypValue M (dynamics abs M P initR eR) (schR y) u v a z (List.ofFn y) = .ok (r y) ∧
        (r y).length = M.nn * M.ndof) ∧
      hypGradientX M (dynamics Fad.fabs M (fun k => (P k).lift (penF k)) initF eF) o sch u v a z (List.ofFn x) =
        .ok J ∧ J.WF M.nn M.nn ∧
      ∀ q, HasFDerivAt (fun y => at0 (r y) q) (lin (M.nn * M.dim) fun j => J.dense j q) x :=
  hyp_gradient_x hM (dynamics_rowR h heR) (dynamics_rowF h heF) (goodCell_local h.el) ho hu hv ha hz hgood
    (dynamics_tracks h x) hs hsR

end

/-! ## Work -/

section
variable {M : FeModel} (hM : M.Ok) {P : Nat → Dyn ℝ} (h : DynOk M P) {init : Nat → Nat → Nat → Nat}
  {eR : Nat → Nat → List Nat} (heR : ∀ k j, IsSchedule (eR k j) (M.size (M.part k)))
  {u v a z x : List ℝ} (hu : u.length = M.nn * M.ndof) (hv : v.length = M.nn * M.ndof)
  (ha : a.length = M.nn * M.ndof) (hz : z.length = M.nn) (hx : x.length = M.nn * M.dim)
  {sch : Nat → Nat → List Nat} (hs : HypSchedOk M sch (M.npc * M.ndof))
include hM h heR hu hv ha hz hx hs

/-- **C59**: on every virtual displacement the residual does the work of the elastic stress, of the Rayleigh
damping and of the inertia forces, less the work of the reference strains and of the body loads. -/
theorem C59_work :
    (hypValue M (dynamics abs M P init eR) sch u v a z x).Sat fun r => r.length = M.nn * M.ndof ∧ ∀ w : Nat → ℝ,
      ∑ q ∈ range (M.nn * M.ndof), at0 r q * w q =
        energyForm M (fun k => (P k).el) z x (at0 u) w + dampingForm M P z x (at0 v) w +
          massForm M P z x (at0 a) w - preWork M (fun k => (P k).el) z x w -
          loadWork M (fun k => (P k).el.bodyLoads) z w := by
  have hR := dynamics_rowR h (init := init) heR
  rw [hypValue_acc hM hu hv ha hz hx hs hR, parValue_rate hM hu hv hz hx hs.toPar (rowAtAcc_row hR _)]
  refine (RowEv.work hM (rowAtRate_row (rowAtAcc_row hR _) _) hu hz hx hs.toPar.toSched).mono ?_
  rintro r ⟨hl, hw⟩
  refine ⟨hl, fun w => ?_⟩
  rw [hw w]
  unfold energyForm dampingForm massForm preWork loadWork meshForm
  simp only [← sum_add_distrib, ← sum_sub_distrib]
  refine sum_congr rfl fun k hk => sum_congr rfl fun c hc => ?_
  have hk' := mem_range.1 hk
  have hdk := h.el.d k hk'
  have hnd : M.npc * M.ndof = ((P k).el.d + 1) * (P k).el.d := by rw [h.el.ndof, FeModel.npc, hdk]
  have hL : ∀ L ∈ (P k).el.bodyLoads, L.dof < (P k).el.d := fun L hL => by
    rw [hdk]
    exact (h.el.loads k _ (if_pos hk') L hL).dof
  have e := row_work (P := P k) (by rw [hdk]; exact h.el.dim) hL c (gcell (M.part k) c)
    (dofs M (at0 u) (gcell (M.part k) c)) (dofs M (at0 v) (gcell (M.part k) c)) (dofs M (at0 a) (gcell (M.part k) c))
    (M.cellZ z (gcell (M.part k) c)) (M.cellX x (gcell (M.part k) c)) (dofs M w (gcell (M.part k) c))
  rw [← hnd] at e
  have hll : ∀ Z W : Nat → ℝ, (fun L => cellLoad L M.dim M.ndof c (gcell (M.part k) c) Z W) =
      fun L => cellLoad L (P k).el.d (P k).el.d c (gcell (M.part k) c) Z W := by
    intro Z W
    rw [h.el.ndof, hdk]
  rw [hll]
  exact e

end

/-! ## The matrices -/

section
variable {M : FeModel} (hM : M.Ok) {P : Nat → Dyn ℝ} (h : DynOk M P) {z x : List ℝ}
include hM h

theorem massForm_congr {u u' w w' : Nat → ℝ} (hu : ∀ q, q < M.nn * M.ndof → u q = u' q)
    (hw : ∀ q, q < M.nn * M.ndof → w q = w' q) : massForm M P z x u w = massForm M P z x u' w' := by
  refine meshForm_congr hM (fun k Z X U U' W W' hk hU hW => ?_) hu hw
  have hdk := h.el.d k hk
  have hnd : M.npc * M.ndof = ((P k).el.d + 1) * (P k).el.d := by rw [h.el.ndof, FeModel.npc, hdk]
  exact cellMass_congr (fun l hl => hU l (by omega)) fun l hl => hW l (by omega)

theorem dampingForm_congr {u u' w w' : Nat → ℝ} (hu : ∀ q, q < M.nn * M.ndof → u q = u' q)
    (hw : ∀ q, q < M.nn * M.ndof → w q = w' q) : dampingForm M P z x u w = dampingForm M P z x u' w' := by
  refine meshForm_congr hM (fun k Z X U U' W W' hk hU hW => ?_) hu hw
  have hdk := h.el.d k hk
  have hnd : M.npc * M.ndof = ((P k).el.d + 1) * (P k).el.d := by rw [h.el.ndof, FeModel.npc, hdk]
  rw [cellMass_congr (fun l hl => hU l (by omega)) fun l hl => hW l (by omega),
    cellEnergy_congr (P := (P k).el) (by rw [hdk]; exact h.el.dim) (fun l hl => hU l (by omega))
      fun l hl => hW l (by omega)]

omit hM h

theorem massForm_lin (a b : ℝ) (u v w : Nat → ℝ) :
    massForm M P z x (fun q => a * u q + b * v q) w = a * massForm M P z x u w + b * massForm M P z x v w :=
  meshForm_lin (fun k Z X a b U V W => cellMass_lin (P k) Z X a b U V W) a b u v w

theorem dampingForm_lin (a b : ℝ) (u v w : Nat → ℝ) :
    dampingForm M P z x (fun q => a * u q + b * v q) w =
      a * dampingForm M P z x u w + b * dampingForm M P z x v w :=
  meshForm_lin (fun k Z X a b U V W => by rw [cellMass_lin, cellEnergy_lin]; ring) a b u v w

theorem massForm_symm (u w : Nat → ℝ) : massForm M P z x u w = massForm M P z x w u :=
  meshForm_symm (fun k Z X U W => cellMass_symm (P k) Z X U W) u w

theorem dampingForm_symm (hsym : ∀ k t s, t < numVoigt (P k).el.d → s < numVoigt (P k).el.d →
      (P k).el.stiff t s = (P k).el.stiff s t) (u w : Nat → ℝ) :
    dampingForm M P z x u w = dampingForm M P z x w u :=
  meshForm_symm (fun k Z X U W => by rw [cellMass_symm, cellEnergy_symm (hsym k)]) u w

theorem dampingForm_eq {α β : ℝ} (hα : ∀ k, k < M.domains.length → (P k).rayA = α)
    (hβ : ∀ k, k < M.domains.length → (P k).rayB = β) (u w : Nat → ℝ) :
    dampingForm M P z x u w = β * energyForm M (fun k => (P k).el) z x u w + α * massForm M P z x u w := by
  unfold dampingForm
  rw [meshForm_add (f := fun k Z X U W => (P k).rayB * cellEnergy (P k).el Z X U W), meshForm_smul hα,
    meshForm_smul hβ]
  rfl

end

/-- Sequential schedules of the hyperbolic vector function. -/
def seqHyp (M : FeModel) (k j : Nat) : List Nat :=
  if j = 3 then List.range (M.size (M.part k) * (M.npc * M.ndof)) else List.range (M.size (M.part k))

theorem seqHyp_ok (M : FeModel) : HypSchedOk M (seqHyp M) (M.npc * M.ndof) := by
  refine ⟨⟨⟨fun k j _ hj => ?_, fun k _ => ?_⟩, fun k _ => ?_⟩, fun k _ => ?_⟩
  · unfold seqHyp
    rw [if_neg (by omega)]
    exact IsSchedule.range _
  · exact IsSchedule.range _
  · exact IsSchedule.range _
  · exact IsSchedule.range _

theorem list_eq_ofFn {n : Nat} {u : List ℝ} (hu : u.length = n) : ∃ u' : Fin n → ℝ, u = List.ofFn u' :=
  ⟨fun i => at0 u i, by
    refine List.ext_getElem (by rw [List.length_ofFn, hu]) fun i h1 h2 => ?_
    rw [List.getElem_ofFn, at0_eq h1]⟩

section
variable {M : FeModel} (hM : M.Ok) {P : Nat → Dyn ℝ} {penF : Nat → Fad → Fad} (h : DynOk M P)
  {initF : Nat → Nat → Nat → Nat} {eF : Nat → Nat → List Nat}
  (heF : ∀ k j, IsSchedule (eF k j) (M.size (M.part k)))
  {o : List Nat} (ho : IsSchedule o M.nn) {sch : Nat → Nat → List Nat}
  {u v a z x : List ℝ} (hu : u.length = M.nn * M.ndof) (hv : v.length = M.nn * M.ndof)
  (ha : a.length = M.nn * M.ndof) (hz : z.length = M.nn) (hx : x.length = M.nn * M.dim)
  (hgood : ∀ c, c < M.nc → goodCell M (fun k => (P k).el) penF (M.cellZ z c) (M.cellX x c))
  (hs : HypSchedOk M sch (M.npc * M.ndof * (M.npc * M.ndof)))
include hM h heF ho hu hv ha hz hx hgood hs

/-- **C59**: the matrix `gradient_u` returns is the matrix of the strain energy form, at every displacement,
velocity and acceleration. -/
theorem C59_stiffness :
    (hypGradientU M (dynamics Fad.fabs M (fun k => (P k).lift (penF k)) initF eF) o sch u v a z x).Sat fun J =>
      J.WF M.nn M.nn ∧ ∀ p w : Nat → ℝ,
        ∑ q ∈ range (M.nn * M.ndof), w q * ∑ j ∈ range (M.nn * M.ndof), J.dense q j * p j =
          energyForm M (fun k => (P k).el) z x p w := by
  obtain ⟨u', rfl⟩ := list_eq_ofFn hu
  let eR : Nat → Nat → List Nat := fun k _ => List.range (M.size (M.part k))
  have heR : ∀ k j, IsSchedule (eR k j) (M.size (M.part k)) := fun k _ => IsSchedule.range _
  obtain ⟨r, J, hr, hJ, hwf, hD⟩ := C59_gradient_u hM h (initR := initF) heR heF ho hv ha hz hx hgood hs
    (schR := fun _ => seqHyp M) (fun _ => seqHyp_ok M)
  refine ⟨J, hJ, hwf, fun p w => ?_⟩
  exact matrix_of_affine hD (w := w) (B := fun p => energyForm M (fun k => (P k).el) z x p w)
    (b0 := dampingForm M P z x (at0 v) w + massForm M P z x (at0 a) w - preWork M (fun k => (P k).el) z x w -
      loadWork M (fun k => (P k).el.bodyLoads) z w)
    (fun a b p q => energyForm_lin a b p q w)
    (fun p q hpq => energyForm_congr hM h.el hpq fun _ _ => rfl) (fun y => by
      obtain ⟨v1, e1, -, e2⟩ := C59_work hM h (init := initF) heR (List.length_ofFn (f := y)) hv ha hz hx (seqHyp_ok M)
      rw [(hr y).1] at e1
      cases e1
      rw [e2 w]
      ring) p

/-- **C59**: the matrix `gradient_v` returns is the matrix of the Rayleigh damping. -/
theorem C59_damping :
    (hypGradientV M (dynamics Fad.fabs M (fun k => (P k).lift (penF k)) initF eF) o sch u v a z x).Sat fun J =>
      J.WF M.nn M.nn ∧ ∀ p w : Nat → ℝ,
        ∑ q ∈ range (M.nn * M.ndof), w q * ∑ j ∈ range (M.nn * M.ndof), J.dense q j * p j =
          dampingForm M P z x p w := by
  obtain ⟨v', rfl⟩ := list_eq_ofFn hv
  let eR : Nat → Nat → List Nat := fun k _ => List.range (M.size (M.part k))
  have heR : ∀ k j, IsSchedule (eR k j) (M.size (M.part k)) := fun k _ => IsSchedule.range _
  obtain ⟨r, J, hr, hJ, hwf, hD⟩ := C59_gradient_v hM h (initR := initF) heR heF ho hu ha hz hx hgood hs
    (schR := fun _ => seqHyp M) (fun _ => seqHyp_ok M)
  refine ⟨J, hJ, hwf, fun p w => ?_⟩
  exact matrix_of_affine hD (w := w) (B := fun p => dampingForm M P z x p w)
    (b0 := energyForm M (fun k => (P k).el) z x (at0 u) w + massForm M P z x (at0 a) w -
      preWork M (fun k => (P k).el) z x w - loadWork M (fun k => (P k).el.bodyLoads) z w)
    (fun a b p q => dampingForm_lin a b p q w)
    (fun p q hpq => dampingForm_congr hM h hpq fun _ _ => rfl) (fun y => by
      obtain ⟨v1, e1, -, e2⟩ := C59_work hM h (init := initF) heR hu (List.length_ofFn (f := y)) ha hz hx (seqHyp_ok M)
      rw [(hr y).1] at e1
      cases e1
      rw [e2 w]
      ring) p

/-- **C59**: the matrix `gradient_a` returns is the consistent mass matrix. -/
theorem C59_mass :
    (hypGradientA M (dynamics Fad.fabs M (fun k => (P k).lift (penF k)) initF eF) o sch u v a z x).Sat fun J =>
      J.WF M.nn M.nn ∧ ∀ p w : Nat → ℝ,
        ∑ q ∈ range (M.nn * M.ndof), w q * ∑ j ∈ range (M.nn * M.ndof), J.dense q j * p j =
          massForm M P z x p w := by
  obtain ⟨a', rfl⟩ := list_eq_ofFn ha
  let eR : Nat → Nat → List Nat := fun k _ => List.range (M.size (M.part k))
  have heR : ∀ k j, IsSchedule (eR k j) (M.size (M.part k)) := fun k _ => IsSchedule.range _
  obtain ⟨r, J, hr, hJ, hwf, hD⟩ := C59_gradient_a hM h (initR := initF) heR heF ho hu hv hz hx hgood hs
    (schR := fun _ => seqHyp M) (fun _ => seqHyp_ok M)
  refine ⟨J, hJ, hwf, fun p w => ?_⟩
  exact matrix_of_affine hD (w := w) (B := fun p => massForm M P z x p w)
    (b0 := energyForm M (fun k => (P k).el) z x (at0 u) w + dampingForm M P z x (at0 v) w -
      preWork M (fun k => (P k).el) z x w - loadWork M (fun k => (P k).el.bodyLoads) z w)
    (fun a b p q => massForm_lin a b p q w)
    (fun p q hpq => massForm_congr hM h hpq fun _ _ => rfl) (fun y => by
      obtain ⟨v1, e1, -, e2⟩ := C59_work hM h (init := initF) heR hu hv (List.length_ofFn (f := y)) hz hx (seqHyp_ok M)
      rw [(hr y).1] at e1
      cases e1
      rw [e2 w]
      ring) p

/-- **C59**: the mass matrix is symmetric. -/
theorem C59_mass_symmetric :
    (hypGradientA M (dynamics Fad.fabs M (fun k => (P k).lift (penF k)) initF eF) o sch u v a z x).Sat fun J =>
      ∀ i j, i < M.nn * M.ndof → j < M.nn * M.ndof → J.dense i j = J.dense j i := by
  refine (C59_mass hM h heF ho hu hv ha hz hx hgood hs).mono ?_
  rintro J ⟨-, hJ⟩ i j hi hj
  have h1 := hJ (Pi.single j 1) (Pi.single i 1)
  have h2 := hJ (Pi.single i 1) (Pi.single j 1)
  rw [sum_single_left hi, sum_single_right hj] at h1
  rw [sum_single_left hj, sum_single_right hi] at h2
  rw [h1, h2, massForm_symm]

/-- **C59**: the mass matrix is positive semidefinite. -/
theorem C59_mass_semidefinite (hw : ∀ k, k < M.domains.length → 0 ≤ (P k).el.cubWeight)
    (hp : ∀ k c, k < M.domains.length → c < M.size (M.part k) →
      0 ≤ (P k).el.pen (meanDensity ((P k).el.d + 1) (M.cellZ z (gcell (M.part k) c))))
    (hr : ∀ k, k < M.domains.length → 0 ≤ (P k).density) :
    (hypGradientA M (dynamics Fad.fabs M (fun k => (P k).lift (penF k)) initF eF) o sch u v a z x).Sat fun J =>
      ∀ p : Nat → ℝ, 0 ≤ ∑ q ∈ range (M.nn * M.ndof), p q * ∑ j ∈ range (M.nn * M.ndof), J.dense q j * p j := by
  refine (C59_mass hM h heF ho hu hv ha hz hx hgood hs).mono ?_
  rintro J ⟨-, hJ⟩ p
  rw [hJ p p]
  exact meshForm_nonneg fun k c hk hc => cellMass_nonneg (P k) (hw k hk) (hp k c hk hc) (hr k hk) _

/-- **C59**: the mass matrix carries the mass of the body: on a unit translation in direction `i` it gives
the sum over the cells of volume, penalty and density, and nothing in the other directions. -/
theorem C59_total_mass (hb : ∀ k, k < M.domains.length → ∑ n ∈ range (M.dim + 1), at0 (P k).basis n = 1)
    {i i' : Nat} (hi : i < M.dim) :
    (hypGradientA M (dynamics Fad.fabs M (fun k => (P k).lift (penF k)) initF eF) o sch u v a z x).Sat fun J =>
      ∑ q ∈ range (M.nn * M.ndof), (if q % M.dim = i' then 1 else 0) *
          ∑ j ∈ range (M.nn * M.ndof), J.dense q j * (if j % M.dim = i then 1 else 0) =
        if i' = i then ∑ k ∈ range M.domains.length, ∑ c ∈ range (M.size (M.part k)),
          |detForm M.dim (M.cellX x (gcell (M.part k) c))| * (P k).el.cubWeight *
            (P k).el.pen (meanDensity (M.dim + 1) (M.cellZ z (gcell (M.part k) c))) * (P k).density else 0 := by
  refine (C59_mass hM h heF ho hu hv ha hz hx hgood hs).mono ?_
  rintro J ⟨-, hJ⟩
  rw [hJ (fun j => if j % M.dim = i then 1 else 0) fun q => if q % M.dim = i' then 1 else 0]
  have key : ∀ k c i, k < M.domains.length → ∀ i0, i0 < M.dim →
      (P k).point (dofs M (fun j => if j % M.dim = i then 1 else 0) c) i0 = if i0 = i then 1 else 0 := by
    intro k c i hk i0 h0
    have hdk := h.el.d k hk
    have e : ∀ n, dofs M (fun j => if j % M.dim = i then (1 : ℝ) else 0) c ((P k).el.d * n + i0 + 0) =
        if i0 = i then 1 else 0 := by
      intro n
      unfold dofs cellDof
      rw [h.el.ndof, hdk, Nat.add_zero, Nat.mul_add_mod]
      dsimp only
      rw [Nat.mul_add_mod, Nat.mod_mod, Nat.mod_eq_of_lt h0]
    unfold Dyn.point interp
    simp only [e]
    rw [← sum_mul, hdk, hb k hk, one_mul]
  have e : massForm M P z x (fun j => if j % M.dim = i then 1 else 0) (fun q => if q % M.dim = i' then 1 else 0) =
      ∑ k ∈ range M.domains.length, ∑ c ∈ range (M.size (M.part k)),
        |detForm M.dim (M.cellX x (gcell (M.part k) c))| * (P k).el.cubWeight *
            (P k).el.pen (meanDensity (M.dim + 1) (M.cellZ z (gcell (M.part k) c))) * (P k).density *
          if i' = i then 1 else 0 := by
    unfold massForm meshForm cellMass
    refine sum_congr rfl fun k hk => sum_congr rfl fun c _ => ?_
    have hdk := h.el.d k (mem_range.1 hk)
    dsimp only
    rw [volForm_eq, hdk]
    congr 1
    rw [sum_congr rfl fun i0 h0 => by rw [key k _ i (mem_range.1 hk) i0 (mem_range.1 h0),
      key k _ i' (mem_range.1 hk) i0 (mem_range.1 h0)]]
    rw [sum_eq_single_of_mem i (mem_range.2 hi) fun j _ hj => by rw [if_neg hj, zero_mul], if_pos rfl, one_mul]
    simp only [eq_comm]
  rw [e]
  split_ifs with hii
  · simp only [mul_one]
  · simp only [mul_zero, sum_const_zero]

end

section
variable {M : FeModel} (hM : M.Ok) {P : Nat → Dyn ℝ} {penF : Nat → Fad → Fad} (h : DynOk M P)
  {initF : Nat → Nat → Nat → Nat} {eF : Nat → Nat → List Nat}
  (heF : ∀ k j, IsSchedule (eF k j) (M.size (M.part k)))
  {o : List Nat} (ho : IsSchedule o M.nn) {sch : Nat → Nat → List Nat}
  {u v a z x : List ℝ} (hu : u.length = M.nn * M.ndof) (hv : v.length = M.nn * M.ndof)
  (ha : a.length = M.nn * M.ndof) (hz : z.length = M.nn) (hx : x.length = M.nn * M.dim)
  (hgood : ∀ c, c < M.nc → goodCell M (fun k => (P k).el) penF (M.cellZ z c) (M.cellX x c))
  (hs : HypSchedOk M sch (M.npc * M.ndof * (M.npc * M.ndof)))
include hM h heF ho hu hv ha hz hx hgood hs

/-- **C59**: if all domains have the same Rayleigh coefficients, the damping matrix is the second coefficient
times the stiffness matrix plus the first one times the mass matrix. -/
theorem C59_rayleigh {α β : ℝ} (hα : ∀ k, k < M.domains.length → (P k).rayA = α)
    (hβ : ∀ k, k < M.domains.length → (P k).rayB = β) :
    ∃ K C A,
      hypGradientU M (dynamics Fad.fabs M (fun k => (P k).lift (penF k)) initF eF) o sch u v a z x = .ok K ∧
      hypGradientV M (dynamics Fad.fabs M (fun k => (P k).lift (penF k)) initF eF) o sch u v a z x = .ok C ∧
      hypGradientA M (dynamics Fad.fabs M (fun k => (P k).lift (penF k)) initF eF) o sch u v a z x = .ok A ∧
      ∀ i j, i < M.nn * M.ndof → j < M.nn * M.ndof → C.dense i j = β * K.dense i j + α * A.dense i j := by
  obtain ⟨K, eK, -, hK⟩ := C59_stiffness (initF := initF) hM h heF ho hu hv ha hz hx hgood hs
  obtain ⟨C, eC, -, hC⟩ := C59_damping (initF := initF) hM h heF ho hu hv ha hz hx hgood hs
  obtain ⟨A, eA, -, hA⟩ := C59_mass (initF := initF) hM h heF ho hu hv ha hz hx hgood hs
  refine ⟨K, C, A, eK, eC, eA, fun i j hi hj => ?_⟩
  have h1 := hK (Pi.single j 1) (Pi.single i 1)
  have h2 := hC (Pi.single j 1) (Pi.single i 1)
  have h3 := hA (Pi.single j 1) (Pi.single i 1)
  rw [sum_single_left hi, sum_single_right hj] at h1 h2 h3
  rw [h1, h2, h3, dampingForm_eq hα hβ]

/-- **C59**: the stiffness matrix of structural dynamics is that of elastostatics, for the same materials,
mesh and densities. -/
theorem C59_static {sch' : Nat → Nat → List Nat} (hs' : SchedOk M sch' (M.npc * M.ndof * (M.npc * M.ndof)))
    {u' : List ℝ} (hu' : u'.length = M.nn * M.ndof) :
    ∃ K K',
      hypGradientU M (dynamics Fad.fabs M (fun k => (P k).lift (penF k)) initF eF) o sch u v a z x = .ok K ∧
      M.gradientU (elastostatic Fad.fabs M (fun k => (P k).el.lift (penF k)) initF eF) o sch' u' z x = .ok K' ∧
      ∀ i j, i < M.nn * M.ndof → j < M.nn * M.ndof → K.dense i j = K'.dense i j := by
  obtain ⟨K, eK, -, hK⟩ := C59_stiffness (initF := initF) hM h heF ho hu hv ha hz hx hgood hs
  obtain ⟨K', eK', -, hK'⟩ := C47_stiffness (initF := initF) hM h.el heF ho hu' hz hx hgood hs'
  refine ⟨K, K', eK, eK', fun i j hi hj => ?_⟩
  have h1 := hK (Pi.single j 1) (Pi.single i 1)
  have h2 := hK' (Pi.single j 1) (Pi.single i 1)
  rw [sum_single_left hi, sum_single_right hj] at h1 h2
  rw [h1, h2]

end

end Plato.Dyn
