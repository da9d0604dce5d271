import Verif.Thermal.Form
import Verif.Thermal.Parabolic

/-!
# Transient heat conduction

C58: the residual of the heat equation, its derivatives, its capacity matrix and the balance of heat; and
what happens to a conductivity that depends on temperature.
-/

namespace Plato.Thermal
open Finset Plato Plato.Mech

section Row
variable {R : Type} [CommRing R] [Div R] {fabs : R → R} {M : FeModel} {P : Nat → Thermal R}

theorem heatEquation_row (hdim : M.dim = 1 ∨ M.dim = 2 ∨ M.dim = 3) (hndof : M.ndof = 1)
    (hd : ∀ k, k < M.domains.length → (P k).d = M.dim)
    (hb : ∀ k, k < M.domains.length → (P k).basis.length = M.dim + 1)
    {sch : Nat → List Nat} (hs : ∀ k, IsSchedule (sch k) (M.size (M.part k))) :
    ParRowEv M (heatEquation fabs M P sch) fun k _ S V Z X => (P k).heatRow fabs S V Z X := by
  refine ⟨?_, ?_, ?_⟩
  · intro k cells s v z x r hp hP hv0 hv1 hr0 hr1
    have hk := part_lt hp
    have hdk := hd k hk
    have hsz : M.size (M.part k) = cells.length := by rw [hp]; rfl
    have hnp : M.npc = (P k).d + 1 := by rw [FeModel.npc, hdk]
    have hnd : M.npc * M.ndof = (P k).d + 1 := by rw [hndof, Nat.mul_one, hnp]
    unfold heatEquation
    rw [hp]
    dsimp only
    rw [heat_ok fabs (by rw [hdk]; exact hdim) (by rw [hb k hk, hdk])
      ⟨(hP.s0.trans hsz).ge, by rw [Nat.mul_one]; exact (hP.s1.trans hnd).ge, (hP.z0.trans hsz).ge,
        (hP.z1.trans hnp).ge, (hP.x0.trans hsz).ge, hP.x1.trans hnp, by rw [hP.x2, hdk]⟩
      (hv0.trans hsz).ge (hv1.trans hnd).ge (hsz ▸ hs k) (hr0.trans hsz).ge (hr1.trans hnd).ge]
  · intro k s v z x r hp
    unfold heatEquation
    rw [hp]
  · intro k c S S' V V' Z Z' X X' hk hS hV hZ hX
    have hdk := hd k hk
    have hnp : M.npc = (P k).d + 1 := by rw [FeModel.npc, hdk]
    have hnd : M.npc * M.ndof = (P k).d + 1 := by rw [hndof, Nat.mul_one, hnp]
    exact heatRow_congr (by rw [hdk]; exact hdim) (fun n hn => hS n (by omega)) (fun n hn => hV n (by omega))
      (fun n hn => hZ n (by omega)) fun a i ha hi => hX a i (by omega) (by omega)

end Row

section
variable {M : FeModel} {P : Nat → Thermal ℝ} {penF : Nat → Fad → Fad} (h : ThermOk M P)
include h

theorem heatEquation_rowR {sch : Nat → List Nat} (hs : ∀ k, IsSchedule (sch k) (M.size (M.part k))) :
    ParRowEv M (heatEquation abs M P sch) fun k _ S V Z X => (P k).heatRow abs S V Z X :=
  heatEquation_row h.dim h.ndof h.d h.basis hs

theorem heatEquation_rowF {sch : Nat → List Nat} (hs : ∀ k, IsSchedule (sch k) (M.size (M.part k))) :
    ParRowEv M (heatEquation Fad.fabs M (fun k => (P k).lift (penF k)) sch) fun k _ S V Z X =>
      ((P k).lift (penF k)).heatRow Fad.fabs S V Z X := by
  refine heatEquation_row (P := fun k => (P k).lift (penF k)) h.dim h.ndof h.d (fun k hk => ?_) hs
  simp only [Thermal.lift, List.length_map]
  exact h.basis k hk

theorem heat_tracks {E : Type} [NormedAddCommGroup E] [NormedSpace ℝ E] (x : E) :
    ParTracks M (fun k _ S V Z X => (P k).heatRow abs S V Z X)
      (fun k _ S V Z X => ((P k).lift (penF k)).heatRow Fad.fabs S V Z X) (thermGood M P penF) x := by
  intro k c N L SF VF ZF XF SR VR ZR XR hk _ hS hV hZ hX hg l _
  have hdk := h.d k hk
  have hnp : M.npc = (P k).d + 1 := by rw [FeModel.npc, hdk]
  have hnd : M.npc * M.ndof = (P k).d + 1 := by rw [h.ndof, Nat.mul_one, hnp]
  exact heatRow_tracks (by rw [hdk]; exact h.dim) (fun n hn => hS n (by omega)) (fun n hn => hV n (by omega))
    (fun n hn => hZ n (by omega)) (fun a i ha hi => hX a i (by omega) (by omega)) (by rw [hdk]; exact hg.1)
    (by rw [hdk]; exact hg.2 k hk) l

variable (hM : M.Ok) {eR eF : Nat → List Nat} (heR : ∀ k, IsSchedule (eR k) (M.size (M.part k)))
  (heF : ∀ k, IsSchedule (eF k) (M.size (M.part k)))
  {o : List Nat} (ho : IsSchedule o M.nn) {sch : Nat → Nat → List Nat}
include hM heR heF ho

/-- **C58**: `gradient_u` is the derivative of `value` with respect to the temperature. -/
theorem C58_gradient_u {u : Fin (M.nn * M.ndof) → ℝ} {v z x : List ℝ} (hv : v.length = M.nn * M.ndof)
    (hz : z.length = M.nn) (hx : x.length = M.nn * M.dim)
    (hgood : ∀ c, c < M.nc → thermGood M P penF (M.cellZ z c) (M.cellX x c))
    (hs : ParSchedOk M sch (M.npc * M.ndof * (M.npc * M.ndof)))
    {schR : (Fin (M.nn * M.ndof) → ℝ) → Nat → Nat → List Nat}
    (hsR : ∀ y, ParSchedOk M (schR y) (M.npc * M.ndof)) :
    ∃ (r : (Fin (M.nn * M.ndof) → ℝ) → List ℝ) (J : Crs ℝ),
      (∀ y, parValue M (heatEquation abs M P eR) (schR y) (List.ofFn y) v z x = .ok (r y) ∧
        (r y).length = M.nn * M.ndof) ∧
      parGradientU M (heatEquation Fad.fabs M (fun k => (P k).lift (penF k)) eF) o sch (List.ofFn u) v z x =
        .ok J ∧ J.WF M.nn M.nn ∧
      ∀ q, q < M.nn * M.ndof →
        HasFDerivAt (fun y => at0 (r y) q) (lin (M.nn * M.ndof) fun j => J.dense q j) u :=
  par_gradient_u hM (heatEquation_rowR h heR) (heatEquation_rowF h heF) (thermGood_local h) ho hv hz hx hgood
    (heat_tracks h u) hs hsR

/-- **C58**: `gradient_v` is the derivative of `value` with respect to the rate of the temperature. -/
theorem C58_gradient_v {v : Fin (M.nn * M.ndof) → ℝ} {u z x : List ℝ} (hu : u.length = M.nn * M.ndof)
    (hz : z.length = M.nn) (hx : x.length = M.nn * M.dim)
    (hgood : ∀ c, c < M.nc → thermGood M P penF (M.cellZ z c) (M.cellX x c))
    (hs : ParSchedOk M sch (M.npc * M.ndof * (M.npc * M.ndof)))
    {schR : (Fin (M.nn * M.ndof) → ℝ) → Nat → Nat → List Nat}
    (hsR : ∀ y, ParSchedOk M (schR y) (M.npc * M.ndof)) :
    ∃ (r : (Fin (M.nn * M.ndof) → ℝ) → List ℝ) (J : Crs ℝ),
      (∀ y, parValue M (heatEquation abs M P eR) (schR y) u (List.ofFn y) z x = .ok (r y) ∧
        (r y).length = M.nn * M.ndof) ∧
      parGradientV M (heatEquation Fad.fabs M (fun k => (P k).lift (penF k)) eF) o sch u (List.ofFn v) z x =
        .ok J ∧ J.WF M.nn M.nn ∧
      ∀ q, q < M.nn * M.ndof →
        HasFDerivAt (fun y => at0 (r y) q) (lin (M.nn * M.ndof) fun j => J.dense q j) v :=
  par_gradient_v hM (heatEquation_rowR h heR) (heatEquation_rowF h heF) (thermGood_local h) ho hu hz hx hgood
    (heat_tracks h v) hs hsR

/-- **C58**: derivative with respect to the control. -/
theorem C58_gradient_z {z : Fin M.nn → ℝ} {u v x : List ℝ} (hu : u.length = M.nn * M.ndof)
    (hv : v.length = M.nn * M.ndof) (hx : x.length = M.nn * M.dim)
    (hgood : ∀ c, c < M.nc → thermGood M P penF (M.cellZ (List.ofFn z) c) (M.cellX x c))
    (hs : ParSchedOk M sch (M.npc * M.ndof * (M.npc * 1)))
    {schR : (Fin M.nn → ℝ) → Nat → Nat → List Nat} (hsR : ∀ y, ParSchedOk M (schR y) (M.npc * M.ndof)) :
    ∃ (r : (Fin M.nn → ℝ) → List ℝ) (J : Crs ℝ),
      (∀ y, parValue M (heatEquation abs M P eR) (schR y) u v (List.ofFn y) x = .ok (r y) ∧
        (r y).length = M.nn * M.ndof) ∧
      parGradientZ M (heatEquation Fad.fabs M (fun k => (P k).lift (penF k)) eF) o sch u v (List.ofFn z) x =
        .ok J ∧ J.WF M.nn M.nn ∧
      ∀ q, HasFDerivAt (fun y => at0 (r y) q) (lin M.nn fun j => J.dense j q) z :=
  par_gradient_z hM (heatEquation_rowR h heR) (heatEquation_rowF h heF) (thermGood_local h) ho hu hv hx hgood
    (heat_tracks h z) hs hsR

/-- **C58**: derivative with respect to the node coordinates. -/
theorem C58_gradient_x {x : Fin (M.nn * M.dim) → ℝ} {u v z : List ℝ} (hu : u.length = M.nn * M.ndof)
    (hv : v.length = M.nn * M.ndof) (hz : z.length = M.nn)
    (hgood : ∀ c, c < M.nc → thermGood M P penF (M.cellZ z c) (M.cellX (List.ofFn x) c))
    (hs : ParSchedOk M sch (M.npc * M.ndof * (M.npc * M.dim)))
    {schR : (Fin (M.nn * M.dim) → ℝ) → Nat → Nat → List Nat}
    (hsR : ∀ y, ParSchedOk M (schR y) (M.npc * M.ndof)) :
    ∃ (r : (Fin (M.nn * M.dim) → ℝ) → List ℝ) (J : Crs ℝ),
      (∀ y, parValue M (heatEquation abs M P eR) (schR y) u v z (List.ofFn y) = .ok (r y) ∧
        (r y).length = M.nn * M.ndof) ∧
      parGradientX M (heatEquation Fad.fabs M (fun k => (P k).lift (penF k)) eF) o sch u v z (List.ofFn x) =
        .ok J ∧ J.WF M.nn M.nn ∧
      ∀ q, HasFDerivAt (fun y => at0 (r y) q) (lin (M.nn * M.dim) fun j => J.dense j q) x :=
  par_gradient_x hM (heatEquation_rowR h heR) (heatEquation_rowF h heF) (thermGood_local h) ho hu hv hz hgood
    (heat_tracks h x) hs hsR

end

/-! ## Work -/

/-- Rate of the heat content of a cell, weighted with the virtual temperature `W` at the integration point:
volume, penalty, rate of the content. -/
noncomputable def cellStorage (P : Thermal ℝ) (Z : Nat → ℝ) (X : Nat → Nat → ℝ) (U V W : Nat → ℝ) : ℝ :=
  P.volForm abs X * P.pen (meanDensity (P.d + 1) Z) * P.mass.rateOf (P.point U) (P.point V) * P.point W

theorem storageRow_work (P : Thermal ℝ) (U V Z : Nat → ℝ) (X : Nat → Nat → ℝ) (W : Nat → ℝ) :
    ∑ l ∈ range (P.d + 1), P.storageRow abs U V Z X l * W l = cellStorage P Z X U V W := by
  unfold Thermal.storageRow cellStorage
  simp only [Finset.sum_apply, sum_mul]
  rw [sum_comm, sum_congr rfl fun n hn => single_pairing (p := 1 * n + 0)
    (by rw [Nat.one_mul]; exact mem_range.1 hn) _ W]
  rw [show P.point W = ∑ n ∈ range (P.d + 1), at0 P.basis n * W n from rfl, mul_sum]
  refine sum_congr rfl fun n _ => ?_
  rw [Nat.one_mul, Nat.add_zero]
  ring

theorem point_zero {P : Thermal ℝ} {U : Nat → ℝ} (h : ∀ n, U n = 0) : P.point U = 0 := by
  unfold Thermal.point interp
  exact sum_eq_zero fun n _ => by rw [h n, mul_zero]

theorem point_one {P : Thermal ℝ} {U : Nat → ℝ} (hb : ∑ n ∈ range (P.d + 1), at0 P.basis n = 1)
    (h : ∀ n, U n = 1) : P.point U = 1 := by
  unfold Thermal.point interp
  rw [← hb]
  exact sum_congr rfl fun n _ => by rw [h n, mul_one]

/-- Conduction with the constant conductivity. -/
noncomputable def linearConduction (M : FeModel) (P : Nat → Thermal ℝ) (z x : List ℝ) (u w : Nat → ℝ) : ℝ :=
  ∑ k ∈ range M.domains.length, ∑ c ∈ range (M.size (M.part k)),
    cellConduction (P k) (P k).law.const (M.cellZ z (gcell (M.part k) c)) (M.cellX x (gcell (M.part k) c))
      (onCell M u (gcell (M.part k) c)) (onCell M w (gcell (M.part k) c))

/-- Rate of the heat content of the mesh, weighted with a virtual temperature. -/
noncomputable def storage (M : FeModel) (P : Nat → Thermal ℝ) (z x : List ℝ) (u v w : Nat → ℝ) : ℝ :=
  ∑ k ∈ range M.domains.length, ∑ c ∈ range (M.size (M.part k)),
    cellStorage (P k) (M.cellZ z (gcell (M.part k) c)) (M.cellX x (gcell (M.part k) c))
      (onCell M u (gcell (M.part k) c)) (onCell M v (gcell (M.part k) c)) (onCell M w (gcell (M.part k) c))

section
variable {M : FeModel} (hM : M.Ok) {P : Nat → Thermal ℝ} (h : ThermOk M P)
  {eR : Nat → List Nat} (heR : ∀ k, IsSchedule (eR k) (M.size (M.part k)))
  {u v z x : List ℝ} (hu : u.length = M.nn * M.ndof) (hv : v.length = M.nn * M.ndof) (hz : z.length = M.nn)
  (hx : x.length = M.nn * M.dim) {sch : Nat → Nat → List Nat} (hs : ParSchedOk M sch (M.npc * M.ndof))
include hM h heR hu hv hz hx hs

/-- What the residual of the heat equation computes: on every virtual temperature, conduction with the
constant conductivity plus the rate of the heat content. -/
theorem heat_work :
    (parValue M (heatEquation abs M P eR) sch u v z x).Sat fun r => r.length = M.nn * M.ndof ∧ ∀ w : Nat → ℝ,
      ∑ q ∈ range (M.nn * M.ndof), at0 r q * w q =
        linearConduction M P z x (at0 u) w + storage M P z x (at0 u) (at0 v) w := by
  rw [parValue_rate hM hu hv hz hx hs (heatEquation_rowR h heR)]
  refine (RowEv.work hM (rowAtRate_row (heatEquation_rowR h heR) _) hu hz hx hs.toSched).mono ?_
  rintro r ⟨hl, hw⟩
  refine ⟨hl, fun w => ?_⟩
  rw [hw w]
  unfold linearConduction storage
  rw [← sum_add_distrib]
  refine sum_congr rfl fun k hk => ?_
  rw [← sum_add_distrib]
  refine sum_congr rfl fun c hc => ?_
  have hdk := h.d k (mem_range.1 hk)
  have hnd : M.npc * M.ndof = (P k).d + 1 := by rw [h.ndof, Nat.mul_one, FeModel.npc, hdk]
  have hU : ∀ u : List ℝ, M.cellU u (gcell (M.part k) c) = onCell M (at0 u) (gcell (M.part k) c) := by
    intro u
    funext l
    unfold FeModel.cellU onCell
    rw [h.ndof, cellDof_one]
  have hV : cellVec M plainOf v (gcell (M.part k) c) = onCell M (at0 v) (gcell (M.part k) c) := hU v
  unfold meshRow rowAtRate
  rw [hnd, hU, hV, h.ndof]
  simp only [cellDof_one]
  have e1 := condRow_work (P k) (P k).law.const
    (onCell M (at0 u) (gcell (M.part k) c)) (M.cellZ z (gcell (M.part k) c)) (M.cellX x (gcell (M.part k) c))
    (onCell M w (gcell (M.part k) c))
  have e2 := storageRow_work (P k) (onCell M (at0 u) (gcell (M.part k) c)) (onCell M (at0 v) (gcell (M.part k) c))
    (M.cellZ z (gcell (M.part k) c)) (M.cellX x (gcell (M.part k) c)) (onCell M w (gcell (M.part k) c))
  rw [← e1, ← e2, ← sum_add_distrib]
  exact sum_congr rfl fun l _ => by rw [← add_mul]; rfl

end

theorem linearConduction_eq {M : FeModel} {P : Nat → Thermal ℝ} {z x : List ℝ}
    (hlin : ∀ k, k < M.domains.length → (P k).law.nonlinear = false) (u w : Nat → ℝ) :
    linearConduction M P z x u w = conduction M P z x u w := by
  unfold linearConduction conduction
  refine sum_congr rfl fun k hk => sum_congr rfl fun c _ => ?_
  rw [cond_linear (hlin k (mem_range.1 hk))]

section
variable {M : FeModel} (hM : M.Ok) {P : Nat → Thermal ℝ} (h : ThermOk M P)
  {eR : Nat → List Nat} (heR : ∀ k, IsSchedule (eR k) (M.size (M.part k)))
  {u v z x : List ℝ} (hu : u.length = M.nn * M.ndof) (hv : v.length = M.nn * M.ndof) (hz : z.length = M.nn)
  (hx : x.length = M.nn * M.dim) {sch : Nat → Nat → List Nat} (hs : ParSchedOk M sch (M.npc * M.ndof))
include hM h heR hu hv hz hx hs

/-- **C58** for a conductivity that does not depend on temperature (density and heat capacity may): on every
virtual temperature the residual does the work of conduction plus the rate of the heat content. -/
theorem C58_work_partial (hlin : ∀ k, k < M.domains.length → (P k).law.nonlinear = false) :
    (parValue M (heatEquation abs M P eR) sch u v z x).Sat fun r => r.length = M.nn * M.ndof ∧ ∀ w : Nat → ℝ,
      ∑ q ∈ range (M.nn * M.ndof), at0 r q * w q =
        conduction M P z x (at0 u) w + storage M P z x (at0 u) (at0 v) w := by
  refine (heat_work hM h heR hu hv hz hx hs).mono ?_
  rintro r ⟨hl, hw⟩
  exact ⟨hl, fun w => by rw [hw w, linearConduction_eq hlin]⟩

/-- **C58**: with a rate of zero and a conductivity that does not depend on temperature the residual is that
of steady conduction, if there are no body loads. -/
theorem C58_steady_partial (hlin : ∀ k, k < M.domains.length → (P k).law.nonlinear = false)
    (hload : ∀ k, k < M.domains.length → (P k).bodyLoads = []) (h0 : ∀ q, at0 v q = 0)
    {eS : Nat → Nat → List Nat} (heS : ∀ k j, IsSchedule (eS k j) (M.size (M.part k)))
    {schS : Nat → Nat → List Nat} (hsS : SchedOk M schS (M.npc * M.ndof)) :
    ∃ r r', parValue M (heatEquation abs M P eR) sch u v z x = .ok r ∧
      M.value (thermostatic abs M P eS) schS u z x = .ok r' ∧ ∀ q, q < M.nn → at0 r q = at0 r' q := by
  obtain ⟨r, e, -, hw⟩ := C58_work_partial hM h heR hu hv hz hx hs hlin
  obtain ⟨r', e', -, hw'⟩ := C57_work hM h heS hu hz hx hsS
  refine ⟨r, r', e, e', fun q hq => ?_⟩
  have h1 := hw (Pi.single q 1)
  have h2 := hw' (Pi.single q 1)
  have hst : storage M P z x (at0 u) (at0 v) (Pi.single q 1) = 0 := by
    unfold storage cellStorage
    refine sum_eq_zero fun k _ => sum_eq_zero fun c _ => ?_
    have : (P k).point (onCell M (at0 v) (gcell (M.part k) c)) = 0 := point_zero fun _ => h0 _
    rw [this]
    unfold MassLaw.rateOf
    split_ifs <;> ring
  have hso : source M P z (Pi.single q 1) = 0 := by
    unfold source
    refine sum_eq_zero fun k hk => sum_eq_zero fun c _ => ?_
    rw [hload k (mem_range.1 hk)]
    rfl
  rw [hst, add_zero] at h1
  rw [hso, sub_zero, ← h1] at h2
  have hn : q < M.nn * M.ndof := by rw [h.ndof]; omega
  simp only [mul_comm (at0 _ _)] at h2
  rw [sum_single_left hn, sum_single_left hn] at h2
  exact h2.symm

/-- **C58**, balance of heat, for every conductivity: the entries of the residual add up to the rate of the
heat content of the body.  The values of the basis functions at the integration point add up to one. -/
theorem C58_balance (hdet : ∀ c, c < M.nc → detForm M.dim (M.cellX x c) ≠ 0)
    (hbasis : ∀ k, k < M.domains.length → ∑ n ∈ range (M.dim + 1), at0 (P k).basis n = 1) :
    (parValue M (heatEquation abs M P eR) sch u v z x).Sat fun r =>
      ∑ q ∈ range M.nn, at0 r q = ∑ k ∈ range M.domains.length, ∑ c ∈ range (M.size (M.part k)),
        (P k).volForm abs (M.cellX x (gcell (M.part k) c)) *
          (P k).pen (meanDensity (M.dim + 1) (M.cellZ z (gcell (M.part k) c))) *
          (P k).mass.rateOf ((P k).point (onCell M (at0 u) (gcell (M.part k) c)))
            ((P k).point (onCell M (at0 v) (gcell (M.part k) c))) := by
  refine (heat_work hM h heR hu hv hz hx hs).mono ?_
  rintro r ⟨-, hw⟩
  have h1 := hw fun _ => 1
  have hc : linearConduction M P z x (at0 u) (fun _ => 1) = 0 := by
    unfold linearConduction
    refine sum_eq_zero fun k hk => sum_eq_zero fun c hcc => ?_
    have hdk := h.d k (mem_range.1 hk)
    exact cellConduction_const (by rw [hdk]; exact h.dim)
      (by rw [hdk]; exact hdet _ ((hM.domOk k).1 c (mem_range.1 hcc))) (a := 1) (.inr fun _ _ => rfl)
  rw [hc, zero_add, h.ndof, Nat.mul_one] at h1
  simp only [mul_one] at h1
  rw [h1]
  unfold storage cellStorage
  refine sum_congr rfl fun k hk => sum_congr rfl fun c _ => ?_
  have hdk := h.d k (mem_range.1 hk)
  have : (P k).point (onCell M (fun _ => (1 : ℝ)) (gcell (M.part k) c)) = 1 := by
    have e := hbasis k (mem_range.1 hk)
    rw [← hdk] at e
    exact point_one e fun _ => rfl
  rw [this, mul_one, hdk]

end

/-! ## The capacity matrix -/

section
variable {M : FeModel} {P : Nat → Thermal ℝ} {z x : List ℝ}

theorem rateOf_lin (m : MassLaw ℝ) (T a b p q : ℝ) :
    m.rateOf T (a * p + b * q) = a * m.rateOf T p + b * m.rateOf T q := by
  unfold MassLaw.rateOf
  split_ifs <;> ring

theorem point_lin (P : Thermal ℝ) (a b : ℝ) (U V : Nat → ℝ) :
    P.point (fun l => a * U l + b * V l) = a * P.point U + b * P.point V := by
  unfold Thermal.point interp
  rw [mul_sum, mul_sum, ← sum_add_distrib]
  exact sum_congr rfl fun n _ => by ring

theorem storage_lin (u : Nat → ℝ) (a b : ℝ) (p q w : Nat → ℝ) :
    storage M P z x u (fun l => a * p l + b * q l) w = a * storage M P z x u p w + b * storage M P z x u q w := by
  unfold storage cellStorage
  simp only [mul_sum, ← sum_add_distrib]
  refine sum_congr rfl fun k _ => sum_congr rfl fun c _ => ?_
  rw [show onCell M (fun l => a * p l + b * q l) (gcell (M.part k) c) = fun l =>
    a * onCell M p (gcell (M.part k) c) l + b * onCell M q (gcell (M.part k) c) l from rfl, point_lin, rateOf_lin]
  ring

theorem storage_congr (hM : M.Ok) (h : ThermOk M P) {u p q w : Nat → ℝ} (hpq : ∀ n, n < M.nn → p n = q n) :
    storage M P z x u p w = storage M P z x u q w := by
  unfold storage cellStorage
  refine sum_congr rfl fun k hk => sum_congr rfl fun c hc => ?_
  have hdk := h.d k (mem_range.1 hk)
  have hgc := (hM.domOk k).1 c (mem_range.1 hc)
  have : (P k).point (onCell M p (gcell (M.part k) c)) = (P k).point (onCell M q (gcell (M.part k) c)) :=
    interp_congr fun n hn => hpq _ (hM.mesh.node_lt hgc (by rw [FeModel.npc, ← hdk]; exact hn))
  rw [this]

theorem rateOf_eq (m : MassLaw ℝ) (T r : ℝ) : m.rateOf T r = r * m.rateOf T 1 := by
  unfold MassLaw.rateOf
  split_ifs <;> ring

theorem storage_symm (u v w : Nat → ℝ) : storage M P z x u v w = storage M P z x u w v := by
  unfold storage cellStorage
  refine sum_congr rfl fun k _ => sum_congr rfl fun c _ => ?_
  rw [rateOf_eq, rateOf_eq _ _ ((P k).point (onCell M w _))]
  ring

end

section
variable {M : FeModel} (hM : M.Ok) {P : Nat → Thermal ℝ} {penF : Nat → Fad → Fad} (h : ThermOk M P)
  {eF : Nat → List Nat} (heF : ∀ k, IsSchedule (eF k) (M.size (M.part k)))
  {o : List Nat} (ho : IsSchedule o M.nn) {sch : Nat → Nat → List Nat}
  {u v z x : List ℝ} (hu : u.length = M.nn * M.ndof) (hv : v.length = M.nn * M.ndof) (hz : z.length = M.nn)
  (hx : x.length = M.nn * M.dim) (hgood : ∀ c, c < M.nc → thermGood M P penF (M.cellZ z c) (M.cellX x c))
  (hs : ParSchedOk M sch (M.npc * M.ndof * (M.npc * M.ndof)))
include hM h heF ho hu hv hz hx hgood hs

/-- **C58**: the matrix `gradient_v` returns is the matrix of the storage form at the given temperature,
whatever the rate. -/
theorem C58_capacity :
    (parGradientV M (heatEquation Fad.fabs M (fun k => (P k).lift (penF k)) eF) o sch u v z x).Sat fun J =>
      J.WF M.nn M.nn ∧ ∀ p w : Nat → ℝ,
        ∑ q ∈ range M.nn, w q * ∑ j ∈ range M.nn, J.dense q j * p j = storage M P z x (at0 u) p w := by
  obtain ⟨v', rfl⟩ : ∃ v' : Fin (M.nn * M.ndof) → ℝ, v = List.ofFn v' :=
    ⟨fun i => at0 v i, by
      refine List.ext_getElem (by rw [List.length_ofFn, hv]) fun i h1 h2 => ?_
      rw [List.getElem_ofFn, at0_eq h1]⟩
  let eR : Nat → List Nat := fun k => List.range (M.size (M.part k))
  have heR : ∀ k, IsSchedule (eR k) (M.size (M.part k)) := fun k => IsSchedule.range _
  let sR : Nat → Nat → List Nat := fun k j =>
    if j = 3 then List.range (M.size (M.part k) * (M.npc * M.ndof)) else List.range (M.size (M.part k))
  have hsR : ParSchedOk M sR (M.npc * M.ndof) :=
    ⟨⟨fun k j _ hj => by rw [show sR k j = List.range (M.size (M.part k)) from if_neg (by omega)]; exact IsSchedule.range _,
      fun k _ => by
        rw [show sR k 3 = List.range (M.size (M.part k) * (M.npc * M.ndof)) from if_pos rfl]
        exact IsSchedule.range _⟩, fun k _ => IsSchedule.range _⟩
  obtain ⟨r, J, hr, hJ, hwf, hD⟩ := C58_gradient_v h hM heR heF ho hu hz hx hgood hs
    (schR := fun _ => sR) (fun _ => hsR)
  refine ⟨J, hJ, hwf, fun p w => ?_⟩
  have := matrix_of_affine hD (w := w) (B := fun p => storage M P z x (at0 u) p w)
    (b0 := linearConduction M P z x (at0 u) w)
    (fun a b p q => storage_lin (at0 u) a b p q w)
    (fun p q hpq => storage_congr hM h fun n hn => hpq n (by rw [h.ndof]; omega)) (fun y => by
      obtain ⟨v1, e1, -, e2⟩ := heat_work hM h heR hu (List.length_ofFn (f := y)) hz hx hsR
      rw [(hr y).1] at e1
      cases e1
      rw [e2 w, add_comm]) p
  rw [← this, h.ndof, Nat.mul_one]

/-- **C58**: the capacity matrix is symmetric, also when density and heat capacity depend on temperature. -/
theorem C58_capacity_symmetric :
    (parGradientV M (heatEquation Fad.fabs M (fun k => (P k).lift (penF k)) eF) o sch u v z x).Sat fun J =>
      ∀ i j, i < M.nn → j < M.nn → J.dense i j = J.dense j i := by
  refine (C58_capacity hM h heF ho hu hv hz hx hgood hs).mono ?_
  rintro J ⟨-, hJ⟩ i j hi hj
  have h1 := hJ (Pi.single j 1) (Pi.single i 1)
  have h2 := hJ (Pi.single i 1) (Pi.single j 1)
  rw [sum_single_left hi, sum_single_right hj] at h1
  rw [sum_single_left hj, sum_single_right hi] at h2
  rw [h1, h2, storage_symm]

/-- **C58**: the capacity matrix is positive semidefinite where the heat content grows with temperature. -/
theorem C58_capacity_semidefinite (hw : ∀ k, k < M.domains.length → 0 ≤ (P k).cubWeight)
    (hpen : ∀ k c, k < M.domains.length → c < M.size (M.part k) →
      0 ≤ (P k).pen (meanDensity ((P k).d + 1) (M.cellZ z (gcell (M.part k) c))))
    (hpos : ∀ k c, k < M.domains.length → c < M.size (M.part k) →
      0 ≤ (P k).mass.rateOf ((P k).point (onCell M (at0 u) (gcell (M.part k) c))) 1) :
    (parGradientV M (heatEquation Fad.fabs M (fun k => (P k).lift (penF k)) eF) o sch u v z x).Sat fun J =>
      ∀ p : Nat → ℝ, 0 ≤ ∑ q ∈ range M.nn, p q * ∑ j ∈ range M.nn, J.dense q j * p j := by
  refine (C58_capacity hM h heF ho hu hv hz hx hgood hs).mono ?_
  rintro J ⟨-, hJ⟩ p
  rw [hJ p p]
  unfold storage cellStorage
  refine sum_nonneg fun k hk => sum_nonneg fun c hc => ?_
  have hk' := mem_range.1 hk
  have hc' := mem_range.1 hc
  rw [rateOf_eq, mul_assoc]
  refine mul_nonneg (mul_nonneg (mul_nonneg (abs_nonneg _) (hw k hk')) (hpen k c hk' hc')) ?_
  rw [mul_right_comm]
  exact mul_nonneg (mul_self_nonneg _) (hpos k c hk' hc')

end

/-! ## A conductivity that depends on temperature -/

section
open Plato.Material

/-- A temperature dependent conductivity leaves the constant at zero. -/
theorem ofInput_const {d : Nat} {inp : PropertyInput} {F : FluxLaw ℝ}
    (h : FluxLaw.ofInput d true inp = .ok F) (i j : Nat) : F.const i j = 0 := by
  unfold FluxLaw.ofInput at h
  cases inp with
  | number v =>
    cases h
    rfl
  | list p =>
    simp only [if_true] at h
    obtain ⟨c0, -, h⟩ := bind_ok' h
    obtain ⟨c1, -, h⟩ := bind_ok' h
    obtain ⟨c2, -, h⟩ := bind_ok' h
    cases h
    rfl
  | missing => cases h

variable {M : FeModel} (hM : M.Ok) {P : Nat → Thermal ℝ} (h : ThermOk M P)
  {eR : Nat → List Nat} (heR : ∀ k, IsSchedule (eR k) (M.size (M.part k)))
  {u v z x : List ℝ} (hu : u.length = M.nn * M.ndof) (hv : v.length = M.nn * M.ndof) (hz : z.length = M.nn)
  (hx : x.length = M.nn * M.dim) {sch : Nat → Nat → List Nat} (hs : ParSchedOk M sch (M.npc * M.ndof))
include hM h heR hu hv hz hx hs

/-- **C58 is false for a conductivity that depends on temperature**: if every material is declared so, then
whatever the conductivities and whatever the temperature, the residual of the heat equation contains no
conduction at all: with a rate of zero every entry vanishes. -/
theorem C58_conduction_false
    (hin : ∀ k, k < M.domains.length → ∃ inp, FluxLaw.ofInput (P k).d true inp = .ok (P k).law)
    (h0 : ∀ q, at0 v q = 0) :
    (parValue M (heatEquation abs M P eR) sch u v z x).Sat fun r => ∀ q, q < M.nn → at0 r q = 0 := by
  refine (heat_work hM h heR hu hv hz hx hs).mono ?_
  rintro r ⟨-, hw⟩ q hq
  have h1 := hw (Pi.single q 1)
  have hn : q < M.nn * M.ndof := by rw [h.ndof]; omega
  simp only [mul_comm (at0 _ _)] at h1
  rw [sum_single_left hn] at h1
  rw [h1]
  have hc : linearConduction M P z x (at0 u) (Pi.single q 1) = 0 := by
    unfold linearConduction cellConduction
    refine sum_eq_zero fun k hk => sum_eq_zero fun c _ => ?_
    obtain ⟨inp, hi⟩ := hin k (mem_range.1 hk)
    simp only [ofInput_const hi, mul_zero, zero_mul, sum_const_zero]
  have hst : storage M P z x (at0 u) (at0 v) (Pi.single q 1) = 0 := by
    unfold storage cellStorage
    refine sum_eq_zero fun k _ => sum_eq_zero fun c _ => ?_
    have : (P k).point (onCell M (at0 v) (gcell (M.part k) c)) = 0 := point_zero fun _ => h0 _
    rw [this]
    unfold MassLaw.rateOf
    split_ifs <;> ring
  rw [hc, hst, add_zero]

end

end Plato.Thermal
