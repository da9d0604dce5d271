import Verif.Mech.Gradients
import Verif.Mech.Element
import Verif.Mech.Track
import Verif.Alg.PenaltyModel
import Mathlib.Analysis.SpecialFunctions.Pow.Deriv

/-!
# The elastostatic vector function

`ElastostaticResidual` as evaluator of the vector function: the gradients are the derivatives, for every
mesh, partition, material, penalty function, reference strain, cell problem forcing and body load.
-/

namespace Plato.Mech
open Finset Plato

/-- The residual of every domain as evaluator of the vector function; without natural boundary
conditions `evaluate_boundary` leaves the result as it is
(/repo/src/elliptic/ElastostaticResidual.hpp:226-242). -/
def elastostatic {R : Type} [CommRing R] [Div R] (fabs : R → R) (M : FeModel) (P : Nat → Elastostatic R)
    (init : Nat → Nat → Nat → Nat) (sch : Nat → Nat → List Nat) : Evaluator R := fun k s z x r =>
  match M.part k with
  | some cells => (P k).evaluate fabs (init k) (sch k) cells s z x r
  | none => .ok r

/-- The residuals fit the mesh: dimensions, and body load data for every cell. -/
structure ResOk (M : FeModel) (P : Nat → Elastostatic ℝ) : Prop where
  dim : M.dim = 1 ∨ M.dim = 2 ∨ M.dim = 3
  ndof : M.ndof = M.dim
  d : ∀ k, k < M.domains.length → (P k).d = M.dim
  loads : ∀ k cells, M.part k = some cells → ∀ B ∈ (P k).bodyLoads, BodyLoad.Ok B M.dim M.dim cells

/-- What the elastostatic residual needs from a cell: it is not degenerate, and the penalty functions
follow the chain rule at its density. -/
def goodCell (M : FeModel) (P : Nat → Elastostatic ℝ) (penF : Nat → Fad → Fad) (Z : Nat → ℝ)
    (X : Nat → Nat → ℝ) : Prop :=
  detForm M.dim X ≠ 0 ∧ ∀ k, k < M.domains.length → PenOk (penF k) (P k).pen (meanDensity (M.dim + 1) Z)

theorem detForm_congr {K : Type} [CommRing K] {d : Nat} {X X' : Nat → Nat → K}
    (hd : d = 1 ∨ d = 2 ∨ d = 3) (h : ∀ a k, a < d + 1 → k < d → X a k = X' a k) :
    detForm d X = detForm d X' := by
  have e : ∀ i n, i < d → n < d → edge d X i n = edge d X' i n := by
    intro i n hi hn
    unfold edge
    rw [h n i (by omega) hi, h d i (by omega) hi]
  rcases hd with rfl | rfl | rfl
  · simp only [detForm]
    rw [e 0 0 (by omega) (by omega)]
  · simp only [detForm]
    rw [e 0 0 (by omega) (by omega), e 0 1 (by omega) (by omega), e 1 0 (by omega) (by omega), e 1 1 (by omega) (by omega)]
  · simp only [detForm]
    rw [e 0 0 (by omega) (by omega), e 0 1 (by omega) (by omega), e 0 2 (by omega) (by omega),
      e 1 0 (by omega) (by omega), e 1 1 (by omega) (by omega), e 1 2 (by omega) (by omega),
      e 2 0 (by omega) (by omega), e 2 1 (by omega) (by omega), e 2 2 (by omega) (by omega)]

theorem goodCell_local {M : FeModel} {P : Nat → Elastostatic ℝ} {penF : Nat → Fad → Fad}
    (h : ResOk M P) : GoodLocal M (goodCell M P penF) := by
  intro Z Z' X X' hZ hX hg
  refine ⟨?_, ?_⟩
  · rw [← detForm_congr h.dim hX]
    exact hg.1
  · have : meanDensity (M.dim + 1) Z' = meanDensity (M.dim + 1) Z := by
      unfold meanDensity
      rw [show ∑ n ∈ range (M.dim + 1), Z' n = ∑ n ∈ range (M.dim + 1), Z n from
        sum_congr rfl fun a ha => (hZ a (mem_range.1 ha)).symm]
    rw [this]
    exact hg.2

theorem lift_bodyLoad_ok {B : BodyLoad ℝ} {d ndof : Nat} {cells : List Nat} (h : B.Ok d ndof cells) :
    B.lift.Ok d ndof cells := by
  obtain ⟨w, b0, b1, f, det, dof⟩ := h
  exact ⟨by simpa [BodyLoad.lift] using w, b0, b1, by simpa [BodyLoad.lift] using f,
    by simpa [BodyLoad.lift] using det, dof⟩

/-- The elastostatic residual computes cell by cell with automatic differentiation values what it
computes with numbers. -/
theorem elastostatic_tracks {E : Type} [NormedAddCommGroup E] [NormedSpace ℝ E] {M : FeModel}
    {P : Nat → Elastostatic ℝ} {penF : Nat → Fad → Fad} (h : ResOk M P)
    {initR initF : Nat → Nat → Nat → Nat} {schR schF : Nat → Nat → List Nat}
    (hsR : ∀ k j, IsSchedule (schR k j) (M.size (M.part k)))
    (hsF : ∀ k j, IsSchedule (schF k j) (M.size (M.part k))) (x : E) :
    EvTracks M (fun _ => elastostatic abs M P initR schR)
      (elastostatic Fad.fabs M (fun k => (P k).lift (penF k)) initF schF) (goodCell M P penF) x := by
  intro k N L sF zF xF sR zR xR hk hF hR hs hz hx hgood
  dsimp only [elastostatic]
  by_cases hkl : k < M.domains.length
  swap
  · have hp : M.part k = none := if_neg hkl
    rw [hp]
    refine ⟨_, fun _ => M.fresh k, rfl, fun _ => rfl, ⟨by rw [← hp]; rfl, rfl⟩, fun _ => ⟨by rw [← hp]; rfl, rfl⟩, ?_⟩
    intro c l _ _
    exact Tracks.zero
  have hp : M.part k = some (M.domains[k]?.getD []) := if_pos hkl
  generalize M.domains[k]?.getD [] = cells at hp
  have hsz : M.size (M.part k) = cells.length := by rw [hp]; rfl
  have hd : (P k).d = M.dim := h.d k hkl
  have hd3 : (P k).d = 1 ∨ (P k).d = 2 ∨ (P k).d = 3 := by rw [hd]; exact h.dim
  have hnd : M.npc * M.ndof = ((P k).d + 1) * (P k).d := by rw [h.ndof, FeModel.npc, hd]
  have hnp : M.npc = (P k).d + 1 := by rw [FeModel.npc, hd]
  have hLd : ∀ B ∈ (P k).bodyLoads, BodyLoad.Ok B (P k).d (P k).d cells := by
    rw [hd]; exact h.loads k cells hp
  have wsOk : ∀ {R : Type} {s z : V2 R} {g : V3 R}, PartOk M k s z g →
      WsOk (P k).d (P k).d cells.length s z g := by
    intro R s z g hh
    exact ⟨(hh.s0.trans hsz).ge, (hh.s1.trans hnd).ge, (hh.z0.trans hsz).ge, (hh.z1.trans hnp).ge,
      (hh.x0.trans hsz).ge, hh.x1.trans hnp, by rw [hh.x2, hd]⟩
  have fr0 : cells.length ≤ (M.fresh k : V2 ℝ).d0 := hsz.ge
  have fr0' : cells.length ≤ (M.fresh k : V2 Fad).d0 := hsz.ge
  rw [hp]
  rw [hsz] at hs hz hx hgood
  have hF' := evaluate_ok (P := (P k).lift (penF k)) (cells := cells) Fad.fabs hd3 (wsOk hF)
    (by
      intro B hB
      obtain ⟨B', hB', rfl⟩ := List.mem_map.1 hB
      exact lift_bodyLoad_ok (hLd B' hB')) (sched := schF k) (fun j => hsz ▸ hsF k j) (initF k)
    (result := M.fresh k) fr0' hnd.ge
  have hR' := fun y => evaluate_ok (P := P k) (cells := cells) abs hd3 (wsOk (hR y)) hLd (sched := schR k)
    (fun j => hsz ▸ hsR k j) (initR k) (result := M.fresh k) fr0 hnd.ge
  refine ⟨_, _, hF', hR', ⟨?_, rfl⟩, fun _ => ⟨?_, rfl⟩, ?_⟩
  · rw [← hp]; rfl
  · rw [← hp]; rfl
  · intro c l hc hl
    rw [show M.size (some cells) = cells.length from rfl] at hc
    simp only [addRows, hc, if_true, Pi.add_apply, FeModel.fresh]
    have hZ : ∀ n, n < (P k).d + 1 → Tracks (L c) N x (zF.e c n) fun y => (zR y).e c n := fun n hn =>
      hz c n hc (by omega)
    refine Tracks.zero.add (Tracks.add ?_ (loadRow_tracks hZ c _ l))
    have hg := hgood c hc
    refine forceRow_tracks hd3 (fun l hl => hs c l hc (by omega)) hZ
      (fun a i ha hi => hx c a i hc (by omega) (by omega)) ?_ ?_ l
    · rw [hd]; exact hg.1
    · rw [hd]; exact hg.2 k hkl

section
variable {M : FeModel} (hM : M.Ok) {P : Nat → Elastostatic ℝ} {penF : Nat → Fad → Fad} (h : ResOk M P)
  {initR initF : Nat → Nat → Nat → Nat} {eR eF : Nat → Nat → List Nat}
  (heR : ∀ k j, IsSchedule (eR k j) (M.size (M.part k)))
  (heF : ∀ k j, IsSchedule (eF k j) (M.size (M.part k)))
  {o : List Nat} (ho : IsSchedule o M.nn) {sch : Nat → Nat → List Nat}
include hM h heR heF ho

/-- **C43** for elastostatics, stiffness matrix. -/
theorem C43_elastostatic_u {u : Fin (M.nn * M.ndof) → ℝ} {z x : List ℝ} (hz : z.length = M.nn)
    (hx : x.length = M.nn * M.dim) (hgood : ∀ c, c < M.nc → goodCell M P penF (M.cellZ z c) (M.cellX x c))
    (hs : SchedOk M sch (M.npc * M.ndof * (M.npc * M.ndof)))
    {schR : (Fin (M.nn * M.ndof) → ℝ) → Nat → Nat → List Nat}
    (hsR : ∀ y, SchedOk M (schR y) (M.npc * M.ndof)) :
    ∃ (v : (Fin (M.nn * M.ndof) → ℝ) → List ℝ) (J : Crs ℝ),
      (∀ y, M.value (elastostatic abs M P initR eR) (schR y) (List.ofFn y) z x = .ok (v y) ∧
        (v y).length = M.nn * M.ndof) ∧
      M.gradientU (elastostatic Fad.fabs M (fun k => (P k).lift (penF k)) initF eF) o sch (List.ofFn u) z x =
        .ok J ∧ J.WF M.nn M.nn ∧
      ∀ q, q < M.nn * M.ndof →
        HasFDerivAt (fun y => at0 (v y) q) (lin (M.nn * M.ndof) fun j => J.dense q j) u :=
  C43_gradient_u hM (goodCell_local h) hz hx hgood (elastostatic_tracks h heR heF u) ho hs hsR

/-- **C43** for elastostatics, derivative with respect to the control. -/
theorem C43_elastostatic_z {z : Fin M.nn → ℝ} {u x : List ℝ} (hu : u.length = M.nn * M.ndof)
    (hx : x.length = M.nn * M.dim)
    (hgood : ∀ c, c < M.nc → goodCell M P penF (M.cellZ (List.ofFn z) c) (M.cellX x c))
    (hs : SchedOk M sch (M.npc * M.ndof * (M.npc * 1)))
    {schR : (Fin M.nn → ℝ) → Nat → Nat → List Nat} (hsR : ∀ y, SchedOk M (schR y) (M.npc * M.ndof)) :
    ∃ (v : (Fin M.nn → ℝ) → List ℝ) (J : Crs ℝ),
      (∀ y, M.value (elastostatic abs M P initR eR) (schR y) u (List.ofFn y) x = .ok (v y) ∧
        (v y).length = M.nn * M.ndof) ∧
      M.gradientZ (elastostatic Fad.fabs M (fun k => (P k).lift (penF k)) initF eF) o sch u (List.ofFn z) x =
        .ok J ∧ J.WF M.nn M.nn ∧
      ∀ q, HasFDerivAt (fun y => at0 (v y) q) (lin M.nn fun j => J.dense j q) z :=
  C43_gradient_z hM (goodCell_local h) hu hx hgood (elastostatic_tracks h heR heF z) ho hs hsR

/-- **C43** for elastostatics, derivative with respect to the node coordinates: what `gradient_x`
returns is the derivative with the integrands and Jacobian determinants of the body loads held fixed. -/
theorem elastostatic_x {x : Fin (M.nn * M.dim) → ℝ} {u z : List ℝ} (hu : u.length = M.nn * M.ndof)
    (hz : z.length = M.nn)
    (hgood : ∀ c, c < M.nc → goodCell M P penF (M.cellZ z c) (M.cellX (List.ofFn x) c))
    (hs : SchedOk M sch (M.npc * M.ndof * (M.npc * M.dim)))
    {schR : (Fin (M.nn * M.dim) → ℝ) → Nat → Nat → List Nat}
    (hsR : ∀ y, SchedOk M (schR y) (M.npc * M.ndof)) :
    ∃ (v : (Fin (M.nn * M.dim) → ℝ) → List ℝ) (J : Crs ℝ),
      (∀ y, M.value (elastostatic abs M P initR eR) (schR y) u z (List.ofFn y) = .ok (v y) ∧
        (v y).length = M.nn * M.ndof) ∧
      M.gradientX (elastostatic Fad.fabs M (fun k => (P k).lift (penF k)) initF eF) o sch u z (List.ofFn x) =
        .ok J ∧ J.WF M.nn M.nn ∧
      ∀ q, HasFDerivAt (fun y => at0 (v y) q) (lin (M.nn * M.dim) fun j => J.dense j q) x :=
  C43_gradient_x hM (goodCell_local h) hu hz hgood (elastostatic_tracks h heR heF x) ho hs hsR

end

/-! ## Penalty functions -/

/-- `pow(a, p)` of the automatic differentiation library, for a positive value. -/
noncomputable def Fad.rpow (a : Fad) (p : ℝ) : Fad :=
  .mk (a.val ^ p) fun k => p * a.val ^ (p - 1) * a.dx k

/-- `MSIMP::operator()` with automatic differentiation values, /repo/src/Simp.hpp:129-134. -/
noncomputable def simpFad (m : PenaltyData) (a : Fad) : Fad :=
  Fad.const m.minValue + (1 - Fad.const m.minValue) * a.rpow m.penalty

/-- `RAMP::operator()` with automatic differentiation values, /repo/src/Ramp.hpp:93-100. -/
noncomputable def rampFad (m : PenaltyData) (a : Fad) : Fad :=
  Fad.const m.minValue + (1 - Fad.const m.minValue) * a / (1 + Fad.const m.penalty * (1 - a))

/-- A function of one variable that is tracked satisfies the chain rule. -/
theorem penOk_of_tracks {penF : Fad → Fad} {pen : ℝ → ℝ} {ρ pen' : ℝ} (hd : HasDerivAt pen pen' ρ)
    (hv : ∀ a : Fad, a.val = ρ → (penF a).val = pen ρ ∧ ∀ k, (penF a).dx k = pen' * a.dx k) :
    PenOk penF pen ρ := ⟨pen', hd, hv⟩

/-- **C43**, MSIMP: positive densities, or an exponent of at least one. -/
theorem simp_penOk (m : PenaltyData) {ρ : ℝ} (hρ : ρ ≠ 0 ∨ 1 ≤ m.penalty) :
    PenOk (simpFad m) (simp m) ρ := by
  refine ⟨(1 - m.minValue) * (m.penalty * ρ ^ (m.penalty - 1)), ?_, ?_⟩
  · unfold simp
    exact ((Real.hasDerivAt_rpow_const hρ).const_mul _).const_add _
  · rintro a rfl
    refine ⟨by simp [simpFad, simp, Fad.rpow, Fad.const], fun k => ?_⟩
    simp [simpFad, Fad.rpow, Fad.const]
    ring

/-- **C43**, RAMP. -/
theorem ramp_penOk (m : PenaltyData) {ρ : ℝ} (hρ : 1 + m.penalty * (1 - ρ) ≠ 0) :
    PenOk (rampFad m) (ramp m) ρ := by
  have h1 : HasDerivAt (fun x : ℝ => 1 + m.penalty * (1 - x)) (m.penalty * (0 - 1)) ρ :=
    (((hasDerivAt_const ρ (1 : ℝ)).sub (hasDerivAt_id ρ)).const_mul m.penalty).const_add 1
  have h2 : HasDerivAt (fun x : ℝ => (1 - m.minValue) * x) ((1 - m.minValue) * 1) ρ :=
    (hasDerivAt_id ρ).const_mul _
  refine ⟨_, (h2.div h1 hρ).const_add m.minValue, ?_⟩
  rintro a rfl
  refine ⟨by simp [rampFad, ramp, Fad.const], fun k => ?_⟩
  simp [rampFad, Fad.const]
  field_simp

end Plato.Mech
