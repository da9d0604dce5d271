import Verif.Thermal.Track
import Verif.Mech.Stiffness

/-!
# Steady heat conduction

C57: the work of the thermostatic residual on a virtual temperature, its derivatives, the conduction
matrix, and the balance of heat.
-/

namespace Plato.Thermal
open Finset Plato Plato.Mech

/-- What the residuals of heat conduction need from the problem. -/
structure ThermOk (M : FeModel) (P : Nat → Thermal ℝ) : Prop where
  dim : M.dim = 1 ∨ M.dim = 2 ∨ M.dim = 3
  ndof : M.ndof = 1
  d : ∀ k, k < M.domains.length → (P k).d = M.dim
  basis : ∀ k, k < M.domains.length → (P k).basis.length = M.dim + 1
  loads : ∀ k cells, M.part k = some cells → ∀ B ∈ (P k).bodyLoads, BodyLoad.Ok B M.dim 1 cells

/-- What they need from a cell: it is not degenerate, and the penalty functions follow the chain rule at
its density. -/
def thermGood (M : FeModel) (P : Nat → Thermal ℝ) (penF : Nat → Fad → Fad) (Z : Nat → ℝ)
    (X : Nat → Nat → ℝ) : Prop :=
  detForm M.dim X ≠ 0 ∧ ∀ k, k < M.domains.length → PenOk (penF k) (P k).pen (meanDensity (M.dim + 1) Z)

theorem thermGood_local {M : FeModel} {P : Nat → Thermal ℝ} {penF : Nat → Fad → Fad}
    (h : ThermOk M P) : GoodLocal M (thermGood M P penF) := by
  intro Z Z' X X' hZ hX hg
  refine ⟨?_, ?_⟩
  · rw [← detForm_congr h.dim hX]
    exact hg.1
  · rw [← meanDensity_congr (npc := M.dim + 1) hZ]
    exact hg.2

section Row
variable {R : Type} [CommRing R] [Div R] {fabs : R → R} {M : FeModel} {P : Nat → Thermal R}

theorem part_lt {M : FeModel} {k : Nat} {cells : List Nat} (hp : M.part k = some cells) : k < M.domains.length := by
  by_contra hk
  have : M.part k = none := if_neg hk
  rw [this] at hp
  cases hp

theorem thermostatic_row (hdim : M.dim = 1 ∨ M.dim = 2 ∨ M.dim = 3) (hndof : M.ndof = 1)
    (hd : ∀ k, k < M.domains.length → (P k).d = M.dim)
    (hb : ∀ k, k < M.domains.length → (P k).basis.length = M.dim + 1)
    (hL : ∀ k cells, M.part k = some cells → ∀ B ∈ (P k).bodyLoads, BodyLoad.Ok B M.dim 1 cells)
    {sch : Nat → Nat → List Nat} (hs : ∀ k j, IsSchedule (sch k j) (M.size (M.part k))) :
    RowEv M (thermostatic fabs M P sch) fun k c S Z X => (P k).staticRow fabs c (gcell (M.part k) c) S Z X := by
  refine ⟨?_, ?_, ?_⟩
  · intro k cells s z x r hp hP hr0 hr1
    have hk := part_lt hp
    have hdk := hd k hk
    have hsz : M.size (M.part k) = cells.length := by rw [hp]; rfl
    have hnp : M.npc = (P k).d + 1 := by rw [FeModel.npc, hdk]
    have hnd : M.npc * M.ndof = (P k).d + 1 := by rw [hndof, Nat.mul_one, hnp]
    unfold thermostatic
    rw [hp]
    dsimp only
    rw [static_ok fabs (by rw [hdk]; exact hdim) (by rw [hb k hk, hdk])
      ⟨(hP.s0.trans hsz).ge, by rw [Nat.mul_one]; exact (hP.s1.trans hnd).ge, (hP.z0.trans hsz).ge,
        (hP.z1.trans hnp).ge, (hP.x0.trans hsz).ge, hP.x1.trans hnp, by rw [hP.x2, hdk]⟩
      (by rw [hdk]; exact hL k cells hp) (fun j => hsz ▸ hs k j) (hr0.trans hsz).ge (hr1.trans hnd).ge]
    rfl
  · intro k s z x r hp
    unfold thermostatic
    rw [hp]
  · intro k c S S' Z Z' X X' hk hS hZ hX l _
    have hdk := hd k hk
    have hnp : M.npc = (P k).d + 1 := by rw [FeModel.npc, hdk]
    have hnd : M.npc * M.ndof = (P k).d + 1 := by rw [hndof, Nat.mul_one, hnp]
    rw [staticRow_congr (by rw [hdk]; exact hdim) (fun n hn => hS n (by omega)) (fun n hn => hZ n (by omega))
      fun a i ha hi => hX a i (by omega) (by omega)]

end Row

section
variable {M : FeModel} {P : Nat → Thermal ℝ} {penF : Nat → Fad → Fad} (h : ThermOk M P)
include h

theorem thermostatic_rowR {sch : Nat → Nat → List Nat} (hs : ∀ k j, IsSchedule (sch k j) (M.size (M.part k))) :
    RowEv M (thermostatic abs M P sch) fun k c S Z X => (P k).staticRow abs c (gcell (M.part k) c) S Z X :=
  thermostatic_row h.dim h.ndof h.d h.basis h.loads hs

theorem thermostatic_rowF {sch : Nat → Nat → List Nat} (hs : ∀ k j, IsSchedule (sch k j) (M.size (M.part k))) :
    RowEv M (thermostatic Fad.fabs M (fun k => (P k).lift (penF k)) sch) fun k c S Z X =>
      ((P k).lift (penF k)).staticRow Fad.fabs c (gcell (M.part k) c) S Z X := by
  refine thermostatic_row (P := fun k => (P k).lift (penF k)) h.dim h.ndof h.d (fun k hk => ?_) (fun k cells hp B hB => ?_) hs
  · simp only [Thermal.lift, List.length_map]
    exact h.basis k hk
  · obtain ⟨B', hB', rfl⟩ := List.mem_map.1 hB
    exact lift_bodyLoad_ok (h.loads k cells hp B' hB')

theorem thermostatic_tracks {E : Type} [NormedAddCommGroup E] [NormedSpace ℝ E]
    {schR schF : Nat → Nat → List Nat} (hsR : ∀ k j, IsSchedule (schR k j) (M.size (M.part k)))
    (hsF : ∀ k j, IsSchedule (schF k j) (M.size (M.part k))) (x : E) :
    EvTracks M (fun _ => thermostatic abs M P schR)
      (thermostatic Fad.fabs M (fun k => (P k).lift (penF k)) schF) (thermGood M P penF) x := by
  refine RowEv.tracks (thermostatic_rowR h hsR) (thermostatic_rowF h hsF) ?_
  intro k c N L SF ZF XF SR ZR XR hk _ hS hZ hX hg l _
  have hdk := h.d k hk
  have hnp : M.npc = (P k).d + 1 := by rw [FeModel.npc, hdk]
  have hnd : M.npc * M.ndof = (P k).d + 1 := by rw [h.ndof, Nat.mul_one, hnp]
  exact staticRow_tracks (by rw [hdk]; exact h.dim) (fun n hn => hS n (by omega)) (fun n hn => hZ n (by omega))
    (fun a i ha hi => hX a i (by omega) (by omega)) (by rw [hdk]; exact hg.1) (by rw [hdk]; exact hg.2 k hk) _ _ l

variable (hM : M.Ok) {eR eF : Nat → Nat → List Nat}
  (heR : ∀ k j, IsSchedule (eR k j) (M.size (M.part k)))
  (heF : ∀ k j, IsSchedule (eF k j) (M.size (M.part k)))
  {o : List Nat} (ho : IsSchedule o M.nn) {sch : Nat → Nat → List Nat}
include hM heR heF ho

/-- **C57**: the conduction matrix is the derivative of the residual, also with a conductivity that
depends on temperature. -/
theorem C57_gradient_u {u : Fin (M.nn * M.ndof) → ℝ} {z x : List ℝ} (hz : z.length = M.nn)
    (hx : x.length = M.nn * M.dim) (hgood : ∀ c, c < M.nc → thermGood M P penF (M.cellZ z c) (M.cellX x c))
    (hs : SchedOk M sch (M.npc * M.ndof * (M.npc * M.ndof)))
    {schR : (Fin (M.nn * M.ndof) → ℝ) → Nat → Nat → List Nat}
    (hsR : ∀ y, SchedOk M (schR y) (M.npc * M.ndof)) :
    ∃ (v : (Fin (M.nn * M.ndof) → ℝ) → List ℝ) (J : Crs ℝ),
      (∀ y, M.value (thermostatic abs M P eR) (schR y) (List.ofFn y) z x = .ok (v y) ∧
        (v y).length = M.nn * M.ndof) ∧
      M.gradientU (thermostatic Fad.fabs M (fun k => (P k).lift (penF k)) eF) o sch (List.ofFn u) z x =
        .ok J ∧ J.WF M.nn M.nn ∧
      ∀ q, q < M.nn * M.ndof →
        HasFDerivAt (fun y => at0 (v y) q) (lin (M.nn * M.ndof) fun j => J.dense q j) u :=
  C43_gradient_u hM (thermGood_local h) hz hx hgood (thermostatic_tracks h heR heF u) ho hs hsR

/-- **C57**: derivative with respect to the control. -/
theorem C57_gradient_z {z : Fin M.nn → ℝ} {u x : List ℝ} (hu : u.length = M.nn * M.ndof)
    (hx : x.length = M.nn * M.dim)
    (hgood : ∀ c, c < M.nc → thermGood M P penF (M.cellZ (List.ofFn z) c) (M.cellX x c))
    (hs : SchedOk M sch (M.npc * M.ndof * (M.npc * 1)))
    {schR : (Fin M.nn → ℝ) → Nat → Nat → List Nat} (hsR : ∀ y, SchedOk M (schR y) (M.npc * M.ndof)) :
    ∃ (v : (Fin M.nn → ℝ) → List ℝ) (J : Crs ℝ),
      (∀ y, M.value (thermostatic abs M P eR) (schR y) u (List.ofFn y) x = .ok (v y) ∧
        (v y).length = M.nn * M.ndof) ∧
      M.gradientZ (thermostatic Fad.fabs M (fun k => (P k).lift (penF k)) eF) o sch u (List.ofFn z) x =
        .ok J ∧ J.WF M.nn M.nn ∧
      ∀ q, HasFDerivAt (fun y => at0 (v y) q) (lin M.nn fun j => J.dense j q) z :=
  C43_gradient_z hM (thermGood_local h) hu hx hgood (thermostatic_tracks h heR heF z) ho hs hsR

/-- **C57**: derivative with respect to the node coordinates, with the integrands and Jacobian
determinants of the body loads held fixed (see C49). -/
theorem C57_gradient_x_partial {x : Fin (M.nn * M.dim) → ℝ} {u z : List ℝ} (hu : u.length = M.nn * M.ndof)
    (hz : z.length = M.nn)
    (hgood : ∀ c, c < M.nc → thermGood M P penF (M.cellZ z c) (M.cellX (List.ofFn x) c))
    (hs : SchedOk M sch (M.npc * M.ndof * (M.npc * M.dim)))
    {schR : (Fin (M.nn * M.dim) → ℝ) → Nat → Nat → List Nat}
    (hsR : ∀ y, SchedOk M (schR y) (M.npc * M.ndof)) :
    ∃ (v : (Fin (M.nn * M.dim) → ℝ) → List ℝ) (J : Crs ℝ),
      (∀ y, M.value (thermostatic abs M P eR) (schR y) u z (List.ofFn y) = .ok (v y) ∧
        (v y).length = M.nn * M.ndof) ∧
      M.gradientX (thermostatic Fad.fabs M (fun k => (P k).lift (penF k)) eF) o sch u z (List.ofFn x) =
        .ok J ∧ J.WF M.nn M.nn ∧
      ∀ q, HasFDerivAt (fun y => at0 (v y) q) (lin (M.nn * M.dim) fun j => J.dense j q) x :=
  C43_gradient_x hM (thermGood_local h) hu hz hgood (thermostatic_tracks h heR heF x) ho hs hsR

end

end Plato.Thermal
