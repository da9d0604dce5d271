import Verif.Mech.LoadGrad

/-!
# C43: a body load for which `gradient_x` is not the derivative; examples of the hypotheses
-/

namespace Plato.Mech
open Finset Plato

/-- Sequential schedules. -/
def seqSched (M : FeModel) (w : Nat) : Nat → Nat → List Nat := fun k j =>
  if j = 3 then List.range (M.size (M.part k) * w) else List.range (M.size (M.part k))

theorem seqSched_ok (M : FeModel) (w : Nat) : SchedOk M (seqSched M w) w :=
  ⟨fun k j _ hj => by
    rw [show seqSched M w k j = List.range (M.size (M.part k)) from if_neg (by omega)]
    exact IsSchedule.range _, fun k _ => by
    rw [show seqSched M w k 3 = List.range (M.size (M.part k) * w) from if_pos rfl]
    exact IsSchedule.range _⟩

/-- A rod of one element. -/
def rod : FeModel := ⟨1, 1, 1, 2, [0, 1], [0, 1, 2], [1, 0], [[0]]⟩

theorem rod_ok : rod.Ok where
  dim := by decide
  ndof := by decide
  mesh := ⟨by decide, by decide⟩
  adj := ⟨by decide, by decide, by decide, by decide, by decide⟩
  graph := by
    intro cell a b hc ha hb
    have ha : a < 2 := ha
    have hb : b < 2 := hb
    have hc : cell < 1 := hc
    interval_cases cell
    interval_cases a <;> interval_cases b <;> decide
  some_domain := by decide
  cells := by decide

/-- A square of two triangles, each its own domain. -/
def square : FeModel :=
  ⟨2, 2, 2, 4, [0, 1, 2, 1, 3, 2], [0, 2, 5, 8, 10], [1, 2, 0, 2, 3, 0, 1, 3, 1, 2], [[0], [1]]⟩

theorem square_ok : square.Ok where
  dim := by decide
  ndof := by decide
  mesh := ⟨by decide, by decide⟩
  adj := ⟨by decide, by decide, by decide, by decide, by decide⟩
  graph := by
    intro cell a b hc ha hb
    have ha : a < 3 := ha
    have hb : b < 3 := hb
    have hc : cell < 2 := hc
    interval_cases cell <;> interval_cases a <;> interval_cases b <;> decide
  some_domain := by decide
  cells := by decide

/-- Unit material without penalty. -/
def unitMaterial (d : Nat) : Elastostatic ℝ :=
  ⟨d, fun i j => if i = j then 1 else 0, fun _ => 0, id, 1, none, []⟩

theorem penOk_id (ρ : ℝ) : PenOk id id ρ :=
  ⟨1, hasDerivAt_id ρ, fun a ha => ⟨ha, fun k => by simp⟩⟩

/-- The hypotheses of the theorems C43 and C47 are met by the square of two triangles. -/
example : square.Ok ∧ ResOk square (fun _ => unitMaterial 2) ∧ IsSchedule (List.range 4) square.nn ∧
    (∀ c, c < square.nc → goodCell square (fun _ => unitMaterial 2) (fun _ => id)
      (square.cellZ [1, 1, 1, 1] c) (square.cellX [0, 0, 1, 0, 0, 1, 1, 1] c)) ∧
    (∀ k t s, ((fun _ => unitMaterial 2 : Nat → Elastostatic ℝ) k).stiff t s =
      ((fun _ => unitMaterial 2 : Nat → Elastostatic ℝ) k).stiff s t) ∧
    ∀ k e, k < square.domains.length → (∃ s, s < numVoigt 2 ∧ e s ≠ 0) →
      0 < voigtEnergy ((fun _ => unitMaterial 2 : Nat → Elastostatic ℝ) k) e := by
  refine ⟨square_ok, ⟨Or.inr (Or.inl rfl), rfl, fun _ _ => rfl, fun _ _ _ B hB => by cases hB⟩,
    IsSchedule.range _, fun c hc => ⟨?_, fun k _ => penOk_id _⟩, fun k t s => ?_, fun k e _ he => ?_⟩
  · have hc : c < 2 := hc
    interval_cases c
    · show (_ : ℝ) ≠ 0
      norm_num [detForm, edge, FeModel.cellX, square, cellNode, FeModel.npc, at0, atN]
    · show (_ : ℝ) ≠ 0
      norm_num [detForm, edge, FeModel.cellX, square, cellNode, FeModel.npc, at0, atN]
  · simp only [unitMaterial, eq_comm]
  · obtain ⟨s, hs, h0⟩ := he
    have e1 : voigtEnergy (unitMaterial 2) e = ∑ t ∈ range (numVoigt 2), e t * e t := by
      unfold voigtEnergy unitMaterial
      refine sum_congr rfl fun t ht => ?_
      rw [sum_eq_single_of_mem t ht]
      · simp
      · intro s _ hs; simp [hs.symm]
    rw [e1]
    exact sum_pos' (fun t _ => mul_self_nonneg _) ⟨s, mem_range.2 hs, mul_self_pos.2 h0⟩

/-- The load: a force of one per unit length. -/
noncomputable def rodLoads : Nat → List LoadFn := fun _ => [⟨0, fun _ => 1⟩]

theorem rod_bodyForces (y : Fin 2 → ℝ) :
    bodyForces rod rodLoads [1, 1] (List.ofFn y) 0 = -(|y 0 - y 1| / 2) := by
  have h0 : rod.domains.length = 1 := rfl
  unfold bodyForces
  rw [h0, sum_range_one]
  unfold scatteredVec
  rw [show rod.size (rod.part 0) = 1 from rfl, sum_range_one, show rod.npc * rod.ndof = 2 from rfl]
  have c0 : cellDof rod.npc rod.ndof rod.c2n (gcell (rod.part 0) 0) 0 = 0 := by decide
  have c1 : cellDof rod.npc rod.ndof rod.c2n (gcell (rod.part 0) 0) 1 = 1 := by decide
  rw [sum_range_succ, sum_range_one, c0, c1, if_pos rfl, if_neg (by decide), add_zero]
  have e : detForm rod.dim (rod.cellX (List.ofFn y) (gcell (rod.part 0) 0)) = y 0 - y 1 := by
    show (_ : ℝ) = _
    simp only [rod, detForm, edge, FeModel.cellX]
    rfl
  have m : meanDensity (rod.dim + 1) (rod.cellZ [1, 1] (gcell (rod.part 0) 0)) = 1 := by
    rw [show gcell (rod.part 0) 0 = 0 by decide]
    norm_num [meanDensity, rod, FeModel.cellZ, cellNode, sum_range_succ, at0, atN, FeModel.npc]
  unfold bodyRow rodLoads
  beta_reduce
  rw [List.map_singleton, List.sum_singleton, e, m]
  have hd : rod.dim = 1 := rfl
  rw [hd, sum_range_succ, sum_range_one]
  simp
  ring

/-- **C43 is false** for `gradient_x` with a body load: a rod of one element with a constant force per
length.  All functions return, no cell is degenerate, and the matrix is not the derivative. -/
theorem C43_elastostatic_x_false :
    ∃ (M : FeModel) (P : Nat → Elastostatic ℝ) (loads : Nat → List LoadFn) (oM : Nat → List Nat)
      (e : Nat → Nat → List Nat) (o : List Nat) (sch schR : Nat → Nat → List Nat) (u z : List ℝ)
      (x : Fin (M.nn * M.dim) → ℝ) (v : (Fin (M.nn * M.dim) → ℝ) → List ℝ) (J : Crs ℝ),
      M.Ok ∧ (∀ c, c < M.nc → goodCell M P (fun _ => id) (M.cellZ z c) (M.cellX (List.ofFn x) c)) ∧
      (∀ y, M.value (elastostaticMesh abs M P id loads sourceLits [0] oM (List.ofFn y) (fun _ _ => id) e) schR u z
        (List.ofFn y) = .ok (v y)) ∧
      M.gradientX (elastostaticMesh Fad.fabs M (fun k => (P k).lift id) BodyLoad.lift loads sourceLits [0] oM
        (List.ofFn x) (fun _ _ => id) e) o sch u z (List.ofFn x) = .ok J ∧
      ∃ q, q < M.nn * M.ndof ∧
        ¬ HasFDerivAt (fun y => at0 (v y) q) (lin (M.nn * M.dim) fun j => J.dense j q) x := by
  have hgood : ∀ c, c < rod.nc → goodCell rod (fun _ => unitMaterial 1) (fun _ => id)
      (rod.cellZ [1, 1] c) (rod.cellX (List.ofFn ![(0 : ℝ), 1]) c) := by
    intro c hc
    have hc : c < 1 := hc
    interval_cases c
    refine ⟨?_, fun k _ => penOk_id _⟩
    show (_ : ℝ) ≠ 0
    norm_num [detForm, edge, FeModel.cellX, rod, cellNode, FeModel.npc, at0, atN]
  obtain ⟨v, J, h1, h2, -, h4⟩ := C43_elastostatic_x_partial (M := rod) rod_ok (Or.inl rfl) rfl
    (P := fun _ => unitMaterial 1) (fun _ _ => rfl) (loads := rodLoads)
    (fun k L hL => by
      rw [List.mem_singleton.1 hL]; decide) sourceLits (oB := [0]) (IsSchedule.range 1)
    (oM := fun k => List.range (rod.size (rod.part k))) (fun k _ => IsSchedule.range _)
    (penF := fun _ => id) (initR := fun _ _ => id) (initF := fun _ _ => id)
    (eR := fun k _ => List.range (rod.size (rod.part k))) (eF := fun k _ => List.range (rod.size (rod.part k)))
    (fun k _ => IsSchedule.range _) (fun k _ => IsSchedule.range _) (o := List.range 2) (IsSchedule.range 2)
    (sch := seqSched rod 4) (x := ![(0 : ℝ), 1]) (u := [0, 0]) (z := [1, 1]) rfl rfl hgood (seqSched_ok rod 4)
    (schR := fun _ => seqSched rod 2) (fun _ => seqSched_ok rod 2)
  refine ⟨rod, fun _ => unitMaterial 1, rodLoads, _, _, _, _, _, _, _, ![(0 : ℝ), 1], v, J, rod_ok, hgood,
    fun y => (h1 y).1, h2, 0, by decide, fun hd => ?_⟩
  have hb := hd.sub (h4 0)
  rw [sub_self] at hb
  have e : (fun y : Fin (rod.nn * rod.dim) → ℝ => at0 (v y) 0 -
      (at0 (v y) 0 - bodyForces rod rodLoads [1, 1] (List.ofFn y) 0)) = fun y : Fin 2 → ℝ => -(|y 0 - y 1| / 2) := by
    funext y
    rw [sub_sub_cancel]
    exact rod_bodyForces y
  have hb' : HasFDerivAt (fun y : Fin 2 → ℝ => -(|y 0 - y 1| / 2)) (0 : (Fin 2 → ℝ) →L[ℝ] ℝ) ![0, 1] := by
    rw [← e]; exact hb
  have hl := (hb'.hasLineDerivAt ![1, 0])
  unfold HasLineDerivAt at hl
  have h2' : HasDerivAt (fun t : ℝ => -(|(![(0 : ℝ), 1] + t • ![(1 : ℝ), 0]) 0 - (![(0 : ℝ), 1] + t • ![(1 : ℝ), 0]) 1| / 2))
      (1 / 2) 0 := by
    have h3 : HasDerivAt (fun t : ℝ => (t - 1) / 2) (1 / 2) 0 := ((hasDerivAt_id (0 : ℝ)).sub_const 1).div_const 2
    refine h3.congr_of_eventuallyEq ?_
    filter_upwards [Iio_mem_nhds (show (0 : ℝ) < 1 by norm_num)] with t ht
    have ht : t < 1 := ht
    simp only [Pi.add_apply, Pi.smul_apply, Matrix.cons_val_zero, Matrix.cons_val_one, smul_eq_mul, zero_add,
      mul_one, mul_zero, add_zero]
    rw [abs_of_neg (by linarith)]
    ring
  have := hl.unique h2'
  norm_num at this

end Plato.Mech
