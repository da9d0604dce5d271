import Verif.Bnd.Tracks
import Verif.Mech.LoadFalse

/-!
# C43, C48: gradients of elastostatics with natural boundary conditions
-/

namespace Plato.Bnd
open Finset Plato Plato.Mech Plato.Crit

/-- The residual of elastostatics with natural boundary conditions,
/repo/src/elliptic/ElastostaticResidual.hpp:166-242, for a scalar type `R`. -/
def loaded {R : Type} [CommRing R] [Div R] (fabs sqrt : R → R) (up : ℝ → R) (M : FeModel) (P : Nat → Elastostatic R)
    (init : Nat → Nat → Nat → Nat) (e : Nat → Nat → List Nat) (Y : Layout) (F : Faces) (normal : Nat → Nat → Nat → ℝ)
    (cub : ℝ) (initB : Nat → Nat → Nat → Nat) (oB : Nat → List Nat) (bcs : List NaturalBC) : Evaluator R :=
  withBoundary M (elastostatic fabs M P init e) fun g r =>
    naturalBCs sqrt up M.dim Y M.c2n F normal (-1) cub initB oB g bcs r

/-- Loads do not use the normals. -/
theorem naturalBCs_normal {R : Type} [CommRing R] (sqrt : R → R) (up : ℝ → R) (d : Nat) (Y : Layout) (c2n : List Nat) (F : Faces)
    (n1 n2 : Nat → Nat → Nat → ℝ) (scale cub : ℝ) (init : Nat → Nat → Nat → Nat) (orders : Nat → List Nat)
    (x : V3 R) (bcs : List NaturalBC) (hl : ∀ B ∈ bcs, ¬ B.isPressure) (r : V2 R) :
    naturalBCs sqrt up d Y c2n F n1 scale cub init orders x bcs r =
      naturalBCs sqrt up d Y c2n F n2 scale cub init orders x bcs r := by
  unfold naturalBCs
  refine forRange_congr' r fun b r hb => ?_
  rw [rd_eq hb, Res.ok_bind, Res.ok_bind]
  have := hl bcs[b] (List.getElem_mem hb)
  cases hBb : bcs[b] with
  | load s flux => rfl
  | pressure s flux => rw [hBb] at this; exact absurd trivial this

section
variable {M : FeModel} (hM : M.Ok) {P : Nat → Elastostatic ℝ} {penF : Nat → Fad → Fad} (h : ResOk M P)
  {initR initF : Nat → Nat → Nat → Nat} {eR eF : Nat → Nat → List Nat}
  (heR : ∀ k j, IsSchedule (eR k j) (M.size (M.part k)))
  (heF : ∀ k j, IsSchedule (eF k j) (M.size (M.part k)))
  {o : List Nat} (ho : IsSchedule o M.nn) {sch : Nat → Nat → List Nat}
  {Y : Layout} (hY : Y.numDofs + Y.offset ≤ Y.dofsPerNode) (hYn : Y.dofsPerNode = M.ndof)
  {F : Faces} {bcs : List NaturalBC} (hB : BCsOk M.dim M.nc M.c2n F bcs)
  (hdist : ∀ B ∈ bcs, FacesDistinct M.dim F B.set) (cub : ℝ)
  (bR bF : Nat → Nat → Nat → Nat) {oR oF : Nat → List Nat}
  (hoR : ∀ b B, bcs[b]? = some B → IsSchedule (oR b) B.set.length)
  (hoF : ∀ b B, bcs[b]? = some B → IsSchedule (oF b) B.set.length)
include hM h heR heF ho hY hYn hB hdist hoR hoF

/-- **C43**, **C48**: the stiffness matrix is the derivative of the residual with natural boundary conditions. -/
theorem C43_loaded_u (normal : Nat → Nat → Nat → ℝ) {u : Fin (M.nn * M.ndof) → ℝ} {z x : List ℝ} (hz : z.length = M.nn)
    (hx : x.length = M.nn * M.dim) (hgood : ∀ c, c < M.nc → goodCell M P penF (M.cellZ z c) (M.cellX x c))
    (hs : SchedOk M sch (M.npc * M.ndof * (M.npc * M.ndof)))
    {schR : (Fin (M.nn * M.ndof) → ℝ) → Nat → Nat → List Nat}
    (hsR : ∀ y, SchedOk M (schR y) (M.npc * M.ndof)) :
    ∃ (v : (Fin (M.nn * M.ndof) → ℝ) → List ℝ) (J : Crs ℝ),
      (∀ y, M.value (loaded abs Real.sqrt id M P initR eR Y F normal cub bR oR bcs) (schR y) (List.ofFn y) z x =
        .ok (v y) ∧ (v y).length = M.nn * M.ndof) ∧
      M.gradientU (loaded Fad.fabs sqrtFad Fad.const M (fun k => (P k).lift (penF k)) initF eF Y F normal cub bF oF bcs)
        o sch (List.ofFn u) z x = .ok J ∧ J.WF M.nn M.nn ∧
      ∀ q, q < M.nn * M.ndof →
        HasFDerivAt (fun y => at0 (v y) q) (lin (M.nn * M.ndof) fun j => J.dense q j) u :=
  C43_gradient_u hM (goodCell_local h) hz hx hgood (boundary_tracks (elastostatic_tracks h heR heF u) hM
    (fun _ _ hg => hg.1) hY hYn h.dim hB hdist normal (-1) cub bR bF hoR hoF) ho hs hsR

/-- ... derivative with respect to the control. -/
theorem C43_loaded_z (normal : Nat → Nat → Nat → ℝ) {z : Fin M.nn → ℝ} {u x : List ℝ} (hu : u.length = M.nn * M.ndof)
    (hx : x.length = M.nn * M.dim)
    (hgood : ∀ c, c < M.nc → goodCell M P penF (M.cellZ (List.ofFn z) c) (M.cellX x c))
    (hs : SchedOk M sch (M.npc * M.ndof * (M.npc * 1)))
    {schR : (Fin M.nn → ℝ) → Nat → Nat → List Nat} (hsR : ∀ y, SchedOk M (schR y) (M.npc * M.ndof)) :
    ∃ (v : (Fin M.nn → ℝ) → List ℝ) (J : Crs ℝ),
      (∀ y, M.value (loaded abs Real.sqrt id M P initR eR Y F normal cub bR oR bcs) (schR y) u (List.ofFn y) x =
        .ok (v y) ∧ (v y).length = M.nn * M.ndof) ∧
      M.gradientZ (loaded Fad.fabs sqrtFad Fad.const M (fun k => (P k).lift (penF k)) initF eF Y F normal cub bF oF bcs)
        o sch u (List.ofFn z) x = .ok J ∧ J.WF M.nn M.nn ∧
      ∀ q, HasFDerivAt (fun y => at0 (v y) q) (lin M.nn fun j => J.dense j q) z :=
  C43_gradient_z hM (goodCell_local h) hu hx hgood (boundary_tracks (elastostatic_tracks h heR heF z) hM
    (fun _ _ hg => hg.1) hY hYn h.dim hB hdist normal (-1) cub bR bF hoR hoF) ho hs hsR

/-- ... derivative with respect to the coordinates, for surface loads.  The normals of the faces may depend on the
coordinates: loads do not use them. -/
theorem C43_loaded_x_partial (hl : ∀ B ∈ bcs, ¬ B.isPressure) (normal : (Fin (M.nn * M.dim) → ℝ) → Nat → Nat → Nat → ℝ)
    {x : Fin (M.nn * M.dim) → ℝ} {u z : List ℝ} (hu : u.length = M.nn * M.ndof) (hz : z.length = M.nn)
    (hgood : ∀ c, c < M.nc → goodCell M P penF (M.cellZ z c) (M.cellX (List.ofFn x) c))
    (hs : SchedOk M sch (M.npc * M.ndof * (M.npc * M.dim)))
    {schR : (Fin (M.nn * M.dim) → ℝ) → Nat → Nat → List Nat}
    (hsR : ∀ y, SchedOk M (schR y) (M.npc * M.ndof)) :
    ∃ (v : (Fin (M.nn * M.dim) → ℝ) → List ℝ) (J : Crs ℝ),
      (∀ y, M.value (loaded abs Real.sqrt id M P initR eR Y F (normal y) cub bR oR bcs) (schR y) u z (List.ofFn y) =
        .ok (v y) ∧ (v y).length = M.nn * M.ndof) ∧
      M.gradientX (loaded Fad.fabs sqrtFad Fad.const M (fun k => (P k).lift (penF k)) initF eF Y F (normal x) cub bF oF
        bcs) o sch u z (List.ofFn x) = .ok J ∧ J.WF M.nn M.nn ∧
      ∀ q, HasFDerivAt (fun y => at0 (v y) q) (lin (M.nn * M.dim) fun j => J.dense j q) x := by
  have e : ∀ y, loaded abs Real.sqrt id M P initR eR Y F (normal y) cub bR oR bcs =
      loaded abs Real.sqrt id M P initR eR Y F (normal x) cub bR oR bcs := by
    intro y
    have e0 : (fun g r => naturalBCs Real.sqrt id M.dim Y M.c2n F (normal y) (-1) cub bR oR g bcs r) =
        fun g r => naturalBCs Real.sqrt id M.dim Y M.c2n F (normal x) (-1) cub bR oR g bcs r := by
      funext g r
      exact naturalBCs_normal Real.sqrt id M.dim Y M.c2n F (normal y) (normal x) (-1) cub bR oR g bcs hl r
    unfold loaded
    rw [e0]
  obtain ⟨v, J, h1, h2⟩ := C43_gradient_x (schR := schR) hM (goodCell_local h) hu hz hgood
    (boundary_tracks (elastostatic_tracks h heR heF x) hM
    (fun _ _ hg => hg.1) hY hYn h.dim hB hdist (normal x) (-1) cub bR bF hoR hoF) ho hs hsR
  exact ⟨v, J, fun y => by rw [e y]; exact h1 y, h2⟩

/-- With pressures, `gradient_x` is the derivative with the normals held fixed. -/
theorem loaded_x_fixed (normal : Nat → Nat → Nat → ℝ)
    {x : Fin (M.nn * M.dim) → ℝ} {u z : List ℝ} (hu : u.length = M.nn * M.ndof) (hz : z.length = M.nn)
    (hgood : ∀ c, c < M.nc → goodCell M P penF (M.cellZ z c) (M.cellX (List.ofFn x) c))
    (hs : SchedOk M sch (M.npc * M.ndof * (M.npc * M.dim)))
    {schR : (Fin (M.nn * M.dim) → ℝ) → Nat → Nat → List Nat}
    (hsR : ∀ y, SchedOk M (schR y) (M.npc * M.ndof)) :
    ∃ (v : (Fin (M.nn * M.dim) → ℝ) → List ℝ) (J : Crs ℝ),
      (∀ y, M.value (loaded abs Real.sqrt id M P initR eR Y F normal cub bR oR bcs) (schR y) u z (List.ofFn y) =
        .ok (v y) ∧ (v y).length = M.nn * M.ndof) ∧
      M.gradientX (loaded Fad.fabs sqrtFad Fad.const M (fun k => (P k).lift (penF k)) initF eF Y F normal cub bF oF
        bcs) o sch u z (List.ofFn x) = .ok J ∧ J.WF M.nn M.nn ∧
      ∀ q, HasFDerivAt (fun y => at0 (v y) q) (lin (M.nn * M.dim) fun j => J.dense j q) x :=
  C43_gradient_x hM (goodCell_local h) hu hz hgood (boundary_tracks (elastostatic_tracks h heR heF x) hM
    (fun _ _ hg => hg.1) hY hYn h.dim hB hdist normal (-1) cub bR bF hoR hoF) ho hs hsR

end

end Plato.Bnd
