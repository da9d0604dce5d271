import Verif.Bnd.Gradients
import Verif.Bnd.Race
import Verif.Bnd.Work

/-!
# C48: what does not hold for boundary loads

Two faces of a side set with a common cell race on the rows of that cell; an interior face counts twice; the derivative
of a pressure with respect to the coordinates leaves out the rotation of the normal.
-/

namespace Plato.Bnd
open Finset Plato Plato.Mech Plato.Crit

/-- One triangle. -/
def tri : FeModel := ⟨2, 2, 1, 3, [0, 1, 2], [0, 2, 4, 6], [1, 2, 0, 2, 0, 1], [[0]]⟩

theorem tri_ok : tri.Ok where
  dim := by decide
  ndof := by decide
  mesh := ⟨by decide, by decide⟩
  adj := ⟨by decide, by decide, by decide, by decide, by decide⟩
  graph := by
    intro cell a b hc ha hb
    have ha : a < 3 := ha
    have hb : b < 3 := hb
    have hc : cell < 1 := hc
    interval_cases cell
    interval_cases a <;> interval_cases b <;> decide
  some_domain := by decide
  cells := by decide

/-- The edges of the triangle. -/
def triFaces : Faces := ⟨[0, 1, 1, 2, 2, 0], [0, 1, 2, 3], [0, 0, 0], [0, 1, 2]⟩

theorem tri_facesOk (set : List Nat) (h : ∀ f ∈ set, f < 3) : FacesOk 2 1 tri.c2n triFaces set where
  up := fun f hf => by have := h f hf; show f + 1 < 4; omega
  mono := fun f hf => by have := h f hf; interval_cases f <;> decide
  upCells := fun f hf => by have := h f hf; interval_cases f <;> decide
  f2n := fun f hf => by have := h f hf; show (f + 1) * 2 ≤ 6; omega
  cell := fun f hf c hc => by
    have := h f hf
    interval_cases f <;> revert c <;> decide
  sub := fun f hf c hc i hi => by
    have := h f hf
    have hc0 : c = 0 := by interval_cases f <;> revert c <;> decide
    subst hc0
    interval_cases f <;> interval_cases i <;> decide

/-- The hypotheses of the theorems C48 are met by the triangle with a pressure on one edge and a load on another. -/
theorem tri_bcsOk (fl1 fl2 : Nat → ℝ) : BCsOk 2 1 tri.c2n triFaces [.pressure [0] fl1, .load [1] fl2] where
  faces := by
    intro B hB
    refine tri_facesOk _ ?_
    simp only [List.mem_cons, List.not_mem_nil, or_false] at hB
    rcases hB with rfl | rfl
    · intro f hf; rw [List.mem_singleton.1 hf]; omega
    · intro f hf; rw [List.mem_singleton.1 hf]; omega
  c2f := by decide
  sides := by
    intro B hB hp f hf c hc
    simp only [List.mem_cons, List.not_mem_nil, or_false] at hB
    rcases hB with rfl | rfl
    · rw [List.mem_singleton.1 hf] at hc ⊢
      have hc0 : c = 0 := by revert c; decide
      subst hc0
      exact ⟨0, by omega, by decide⟩
    · exact absurd hp id

/-! ## Race -/

/-- **C48 is false** for concurrent faces: a triangle with two edges in the side set.  Both faces add to the row of their
common node with a plain load and store; the interleaving loses the addition of the first one. -/
theorem C48_race_false :
    ∃ (Y : Layout) (set : List Nat) (flux : Nat → ℝ) (x : Nat → Nat → Nat → ℝ) (M : List (Nat × AMicro ℝ)) (s : AState ℝ),
      Y.numDofs + Y.offset ≤ Y.dofsPerNode ∧ set.Nodup ∧ FacesOk 2 1 tri.c2n triFaces set ∧
      Interleaves (set.map (faceAddsOf Real.sqrt 2 Y tri.c2n triFaces 1 (fun _ _ w k => w * flux k) x)) M ∧
      runAdds M ⟨⟨1, 3, fun _ _ => 0⟩, fun _ => 0⟩ = .ok s ∧
      s.r.e 0 1 ≠ (set.map fun face =>
        addedAt (faceAddsOf Real.sqrt 2 Y tri.c2n triFaces 1 (fun _ _ w k => w * flux k) x face) (0, 1)).sum := by
  let x : Nat → Nat → Nat → ℝ := fun _ n k => if n = 1 ∧ k = 0 then 1 else if n = 2 ∧ k = 1 then 1 else 0
  let w : Nat → ℝ := fun face => weightForm Real.sqrt 2 1 fun n k => x 0 (localOf 2 tri.c2n triFaces.f2n 0 face n) k
  have c0 : triFaces.cellsOf 0 = [0] := by decide
  have c1 : triFaces.cellsOf 1 = [0] := by decide
  have l00 : localOf 2 tri.c2n triFaces.f2n 0 0 0 = 0 := by decide
  have l01 : localOf 2 tri.c2n triFaces.f2n 0 0 1 = 1 := by decide
  have l10 : localOf 2 tri.c2n triFaces.f2n 0 1 0 = 1 := by decide
  have l11 : localOf 2 tri.c2n triFaces.f2n 0 1 1 = 2 := by decide
  have f0 : faceAddsOf Real.sqrt 2 ⟨1, 1, 0⟩ tri.c2n triFaces 1 (fun _ _ w k => w * (1 : ℝ)) x 0 =
      [((0, 0), w 0), ((0, 1), w 0)] := by
    unfold faceAddsOf cellAdds
    rw [c0]
    simp [List.range_succ, l00, l01, w]
  have f1 : faceAddsOf Real.sqrt 2 ⟨1, 1, 0⟩ tri.c2n triFaces 1 (fun _ _ w k => w * (1 : ℝ)) x 1 =
      [((0, 1), w 1), ((0, 2), w 1)] := by
    unfold faceAddsOf cellAdds
    rw [c1]
    simp [List.range_succ, l10, l11, w]
  have hw : w 0 ≠ 0 := by
    show weightForm Real.sqrt 2 1 (fun n k => x 0 (localOf 2 tri.c2n triFaces.f2n 0 0 n) k) ≠ 0
    unfold weightForm
    simp [l00, l01, x]
  let M : List (Nat × AMicro ℝ) :=
    [(0, .load (0, 0)), (0, .store (0, 0) (w 0)), (0, .load (0, 1)), (1, .load (0, 1)), (0, .store (0, 1) (w 0)),
      (1, .store (0, 1) (w 1)), (1, .load (0, 2)), (1, .store (0, 2) (w 1))]
  have hrun : ∃ s, runAdds M ⟨⟨1, 3, fun _ _ => 0⟩, fun _ => 0⟩ = .ok s ∧ s.r.e 0 1 = w 1 := by
    refine ⟨_, rfl, ?_⟩
    simp [Function.update]
  obtain ⟨s, hs, hv⟩ := hrun
  refine ⟨⟨1, 1, 0⟩, [0, 1], fun _ => 1, x, M, s, by decide, by decide, tri_facesOk _ (by decide), ?_, hs, ?_⟩
  · rw [List.map_cons, List.map_singleton, f0, f1]
    refine ⟨?_, ?_⟩
    · intro y hy
      simp only [M, List.mem_cons, List.not_mem_nil, or_false] at hy
      rcases hy with rfl | rfl | rfl | rfl | rfl | rfl | rfl | rfl <;> decide
    · intro t ht
      have ht : t < 2 := ht
      interval_cases t <;> rfl
  · rw [hv, List.map_cons, List.map_singleton, f0, f1]
    simp [hw]

/-! ## Interior faces -/

/-- Edges of the square of two triangles: edge 0 is the diagonal, edge 1 a side. -/
def squareFaces : Faces := ⟨[1, 2, 0, 1], [0, 2, 3], [0, 1, 0], [1, 0, 5, 6, 7, 0]⟩

theorem square_facesOk : FacesOk 2 2 square.c2n squareFaces [0] where
  up := by decide
  mono := by decide
  upCells := by decide
  f2n := by decide
  cell := by decide
  sub := by
    intro f hf c hc i hi
    rw [List.mem_singleton.1 hf] at hc ⊢
    have hc2 : c < 2 := by revert c; decide
    interval_cases c <;> interval_cases i <;> decide

/-- **C48**, resultant of a load on a side set: traction times area, once for each cell of a face. -/
theorem C48_resultant_set {d nn nc : Nat} (hd0 : d ≠ 0) {c2n : List Nat} {Y : Layout}
    (hY : Y.numDofs + Y.offset ≤ Y.dofsPerNode) {F : Faces} {set : List Nat} {flux : Nat → ℝ}
    (hB : FacesOk d nc c2n F set) (hm : Mesh c2n (d + 1) nc nn) (normal : Nat → Nat → Nat → ℝ) (x : List ℝ) {k : Nat}
    (hk : k < Y.numDofs) :
    ∑ a ∈ range nn, bndForce d Y F normal x [.load set flux] (Y.dofsPerNode * a + (k + Y.offset)) =
      (set.map fun face => (F.cellsOf face).length * (flux k * faceArea d (F.coords d x face))).sum := by
  unfold bndForce
  simp only [List.map_cons, List.map_nil, List.sum_cons, List.sum_nil, add_zero, NaturalBC.set]
  have sumcomm : ∀ (l : List Nat) (f : Nat → Nat → ℝ), ∑ a ∈ range nn, (l.map fun b => f b a).sum =
      (l.map fun b => ∑ a ∈ range nn, f b a).sum := by
    intro l f
    induction l with
    | nil => simp
    | cons b l ih => simp only [List.map_cons, List.sum_cons, sum_add_distrib, ih]
  rw [sumcomm set (fun face a => ((F.cellsOf face).map fun cell =>
    faceForce d Y F x face (NaturalBC.traction d F normal (.load set flux) cell face) (Y.dofsPerNode * a + (k + Y.offset))).sum)]
  congr 1
  refine List.map_congr_left fun face hface => ?_
  rw [sumcomm (F.cellsOf face) (fun cell a =>
    faceForce d Y F x face (NaturalBC.traction d F normal (.load set flux) cell face) (Y.dofsPerNode * a + (k + Y.offset)))]
  have : ∀ cell ∈ F.cellsOf face, ∑ a ∈ range nn, faceForce d Y F x face
      (NaturalBC.traction d F normal (.load set flux) cell face) (Y.dofsPerNode * a + (k + Y.offset)) =
      flux k * faceArea d (F.coords d x face) := by
    intro cell hcell
    refine C48_resultant hd0 hY (fun n hn => ?_) x flux hk
    obtain ⟨l1, l2⟩ := localOf_spec (hB.sub face hface cell hcell n hn)
    have := hm.node_lt (hB.cell face hface cell hcell) l1
    rw [l2] at this
    exact this
  rw [List.map_congr_left this, List.map_const', List.sum_replicate, nsmul_eq_mul]

/-- **C48 is false** for a side set in the interior: the force on the diagonal of the square is twice the traction times
the length. -/
theorem C48_interior_false :
    ∃ x : List ℝ, ∑ a ∈ range square.nn, bndForce 2 ⟨2, 2, 0⟩ squareFaces (fun _ _ _ => 0) x [.load [0] fun _ => 1]
      (2 * a + (0 + 0)) ≠ 1 * faceArea 2 (squareFaces.coords 2 x 0) := by
  refine ⟨[0, 0, 1, 0, 0, 1, 1, 1], ?_⟩
  have h := C48_resultant_set (nn := square.nn) (Y := ⟨2, 2, 0⟩) (flux := fun _ => 1) (by omega) (by decide) square_facesOk
    square_ok.mesh (fun _ _ _ => 0) [0, 0, 1, 0, 0, 1, 1, 1] (k := 0) (by decide)
  have c0 : squareFaces.cellsOf 0 = [0, 1] := by decide
  simp only [List.map_singleton, List.sum_singleton, c0, List.length_cons, List.length_nil] at h
  have ha : 0 < faceArea 2 (squareFaces.coords 2 [0, 0, 1, 0, 0, 1, 1, 1] 0) := by
    have hw := C48_weight_area (d := 2) (by omega) 1 (squareFaces.coords 2 [0, 0, 1, 0, 0, 1, 1, 1] 0)
    have : 0 < weightForm Real.sqrt 2 (1 * (1 / ((2 : Nat).factorial : ℝ))) (squareFaces.coords 2 [0, 0, 1, 0, 0, 1, 1, 1] 0) := by
      unfold weightForm
      simp [Faces.coords, Faces.node, squareFaces, at0, atN, Nat.factorial]
    rw [hw] at this
    push_cast at this
    linarith
  intro he
  rw [h] at he
  push_cast at he
  linarith

/-! ## Pressure -/

/-- Outward unit normal of the edges of a triangle with counter-clockwise nodes, as `unit_normal_vector`,
/repo/src/OmegaHUtilities.hpp:242-251, computes it. -/
noncomputable def triNormal (x : List ℝ) (_cell side k : Nat) : ℝ :=
  let e := fun i => at0 x (2 * ((side + 1) % 3) + i) - at0 x (2 * side + i)
  (if k = 0 then e 1 else -e 0) / Real.sqrt (e 1 * e 1 + e 0 * e 0)

/-- Force in direction 0 at node 0 of a unit pressure on the edge from node 0 to node 1. -/
theorem tri_pressure (normal : Nat → Nat → Nat → ℝ) (x : List ℝ) :
    bndForce 2 ⟨2, 2, 0⟩ triFaces normal x [.pressure [0] fun _ => 1] 0 =
      normal 0 0 0 * (1 / 2 * Real.sqrt ((at0 x 0 - at0 x 2) * (at0 x 0 - at0 x 2) + (at0 x 1 - at0 x 3) * (at0 x 1 - at0 x 3))) := by
  have c0 : triFaces.cellsOf 0 = [0] := by decide
  have s0 : sideOf 2 triFaces.c2f 0 0 = 0 := by decide
  have n0 : triFaces.node 2 0 0 = 0 := by decide
  have n1 : triFaces.node 2 0 1 = 1 := by decide
  have hw := C48_weight (d := 2) (by omega) 1 (triFaces.coords 2 x 0) (n := 0) (by omega)
  rw [one_mul, one_mul] at hw
  unfold bndForce
  simp only [List.map_singleton, List.sum_singleton, NaturalBC.set, c0]
  unfold faceForce
  simp only [sum_range_succ, sum_range_zero, n0, n1, NaturalBC.traction, s0, faceIntegral_const_mul]
  rw [← hw]
  simp [weightForm, Faces.coords, n0, n1, Nat.factorial]

theorem tri_line (t : ℝ) : List.ofFn ((![0, 0, 1, 0, 0, 1] : Fin 6 → ℝ) + t • Pi.single (3 : Fin 6) (1 : ℝ)) =
    [0, 0, 1, t, 0, 1] := by
  have : (![0, 0, 1, 0, 0, 1] : Fin 6 → ℝ) + t • Pi.single (3 : Fin 6) (1 : ℝ) = ![0, 0, 1, t, 0, 1] := by
    funext i
    fin_cases i <;> simp [Pi.single_apply]
  rw [this]
  simp [List.ofFn_succ]

theorem tri_turn (t : ℝ) :
    triNormal [0, 0, 1, 0, 0, 1] 0 0 0 * (1 / 2 * Real.sqrt ((at0 [0, 0, 1, t, 0, 1] 0 - at0 [0, 0, 1, t, 0, 1] 2) *
      (at0 [0, 0, 1, t, 0, 1] 0 - at0 [0, 0, 1, t, 0, 1] 2) + (at0 [0, 0, 1, t, 0, 1] 1 - at0 [0, 0, 1, t, 0, 1] 3) *
      (at0 [0, 0, 1, t, 0, 1] 1 - at0 [0, 0, 1, t, 0, 1] 3))) -
    triNormal [0, 0, 1, t, 0, 1] 0 0 0 * (1 / 2 * Real.sqrt ((at0 [0, 0, 1, t, 0, 1] 0 - at0 [0, 0, 1, t, 0, 1] 2) *
      (at0 [0, 0, 1, t, 0, 1] 0 - at0 [0, 0, 1, t, 0, 1] 2) + (at0 [0, 0, 1, t, 0, 1] 1 - at0 [0, 0, 1, t, 0, 1] 3) *
      (at0 [0, 0, 1, t, 0, 1] 1 - at0 [0, 0, 1, t, 0, 1] 3))) = -(t / 2) := by
  have hpos : Real.sqrt (t * t + 1) ≠ 0 := (Real.sqrt_pos.2 (by nlinarith [mul_self_nonneg t])).ne'
  simp only [triNormal, at0, List.getD_cons_zero, List.getD_cons_succ]
  norm_num [at0]
  rw [add_comm 1 (t * t)]
  field_simp

/-- **C48**, **C43 are false** for the derivative of a pressure with respect to the coordinates: a triangle with a unit
pressure on one edge.  All functions return, the cell is not degenerate, and the matrix is not the derivative of the
residual, because the normal is a plain number. -/
theorem C48_pressure_x_false :
    ∃ (M : FeModel) (F : Faces) (bcs : List NaturalBC) (P : Nat → Elastostatic ℝ)
      (e : Nat → Nat → List Nat) (oB : Nat → List Nat) (o : List Nat) (sch schR : Nat → Nat → List Nat) (u z : List ℝ)
      (rule : CubRule ℝ) (x : Fin (M.nn * M.dim) → ℝ) (v : (Fin (M.nn * M.dim) → ℝ) → List ℝ) (J : Crs ℝ),
      M.Ok ∧ BCsOk M.dim M.nc M.c2n F bcs ∧ linearTetCubRule M.dim = .ok rule ∧
      (∀ c, c < M.nc → goodCell M P (fun _ => id) (M.cellZ z c) (M.cellX (List.ofFn x) c)) ∧
      (∀ y, M.value (loaded abs Real.sqrt id M P (fun _ _ => id) e ⟨M.ndof, M.ndof, 0⟩ F (triNormal (List.ofFn y)) rule.weight
        (fun _ _ => id) oB bcs) schR u z (List.ofFn y) = .ok (v y)) ∧
      M.gradientX (loaded Fad.fabs sqrtFad Fad.const M (fun k => (P k).lift id) (fun _ _ => id) e ⟨M.ndof, M.ndof, 0⟩ F
        (triNormal (List.ofFn x)) rule.weight (fun _ _ => id) oB bcs) o sch u z (List.ofFn x) = .ok J ∧
      ∃ q, q < M.nn * M.ndof ∧
        ¬ HasFDerivAt (fun y => at0 (v y) q) (lin (M.nn * M.dim) fun j => J.dense j q) x := by
  let x0 : Fin 6 → ℝ := ![0, 0, 1, 0, 0, 1]
  let bcs : List NaturalBC := [.pressure [0] fun _ => 1]
  have hB : BCsOk tri.dim tri.nc tri.c2n triFaces bcs :=
    ⟨fun B hB => by
      rw [List.mem_singleton.1 hB]
      exact tri_facesOk _ (by intro f hf; rw [List.mem_singleton.1 hf]; omega),
    by decide, fun B hBm hp f hf c hc => (tri_bcsOk (fun _ => 1) fun _ => 1).sides B
      (by rw [List.mem_singleton.1 hBm]; simp) hp f hf c hc⟩
  have hdist : ∀ B ∈ bcs, FacesDistinct tri.dim triFaces B.set := by
    intro B hBm f hf i j hi hj
    rw [List.mem_singleton.1 hBm] at hf
    rw [List.mem_singleton.1 hf]
    have hi : i < 2 := hi
    have hj : j < 2 := hj
    interval_cases i <;> interval_cases j <;> decide
  obtain ⟨rule, hr⟩ : ∃ rule : CubRule ℝ, linearTetCubRule tri.dim = .ok rule :=
    (C21_degree_one (d := 2) (by omega)).imp fun _ h => h.1
  have hres : ResOk tri fun _ => unitMaterial 2 :=
    ⟨Or.inr (Or.inl rfl), rfl, fun _ _ => rfl, fun _ _ _ B hB => by cases hB⟩
  have hgood : ∀ c, c < tri.nc → goodCell tri (fun _ => unitMaterial 2) (fun _ => id)
      (tri.cellZ [1, 1, 1] c) (tri.cellX (List.ofFn x0) c) := by
    intro c hc
    have hc : c < 1 := hc
    interval_cases c
    refine ⟨?_, fun k _ => penOk_id _⟩
    show (_ : ℝ) ≠ 0
    norm_num [detForm, edge, FeModel.cellX, tri, cellNode, FeModel.npc, at0, atN, x0, List.ofFn, Fin.foldr, Fin.foldr.loop]
  let e : Nat → Nat → List Nat := fun k _ => List.range (tri.size (tri.part k))
  have he : ∀ k j, IsSchedule (e k j) (tri.size (tri.part k)) := fun k j => IsSchedule.range _
  let oB : Nat → List Nat := fun _ => List.range 1
  have hoB : ∀ b B, bcs[b]? = some B → IsSchedule (oB b) B.set.length := by
    intro b B hb
    have := List.mem_of_getElem? hb
    rw [List.mem_singleton.1 this]
    exact IsSchedule.range 1
  obtain ⟨vf, J, h1, h2, -, h4⟩ := loaded_x_fixed (M := tri) tri_ok (P := fun _ => unitMaterial 2) (penF := fun _ => id) hres
    (initR := fun _ _ => id) (initF := fun _ _ => id) he he (o := List.range 3) (IsSchedule.range 3)
    (sch := seqSched tri 36) (Y := ⟨2, 2, 0⟩) (by decide) rfl hB hdist rule.weight (fun _ _ => id) (fun _ _ => id) hoB hoB
    (triNormal (List.ofFn x0)) (x := x0) (u := [0, 0, 0, 0, 0, 0]) (z := [1, 1, 1]) rfl rfl hgood (seqSched_ok tri 36)
    (schR := fun _ => seqSched tri 6) (fun _ => seqSched_ok tri 6)
  have hval : ∀ (y : Fin 6 → ℝ) (normal : Nat → Nat → Nat → ℝ), ∃ v0 v : List ℝ,
      tri.value (elastostatic abs tri (fun _ => unitMaterial 2) (fun _ _ => id) e) (seqSched tri 6) [0, 0, 0, 0, 0, 0]
        [1, 1, 1] (List.ofFn y) = .ok v0 ∧
      tri.value (loaded abs Real.sqrt id tri (fun _ => unitMaterial 2) (fun _ _ => id) e ⟨2, 2, 0⟩ triFaces normal rule.weight
        (fun _ _ => id) oB bcs) (seqSched tri 6) [0, 0, 0, 0, 0, 0] [1, 1, 1] (List.ofFn y) = .ok v ∧
      at0 v 0 = at0 v0 0 + (-1) * bndForce 2 ⟨2, 2, 0⟩ triFaces normal (List.ofFn y) bcs 0 := by
    intro y normal
    obtain ⟨v0, hv0, -⟩ := C47_value (M := tri) tri_ok hres (init := fun _ _ => id) he (u := [0, 0, 0, 0, 0, 0]) (z := [1, 1, 1])
      (x := List.ofFn y) rfl rfl (by simp [tri]) (seqSched_ok tri 6)
    obtain ⟨v, hv, -, hq⟩ := C48_value (M := tri) tri_ok (ev := elastostatic abs tri (fun _ => unitMaterial 2) (fun _ _ => id) e)
      (fun s z x r => rfl) (u := [0, 0, 0, 0, 0, 0]) (z := [1, 1, 1]) (x := List.ofFn y) rfl rfl (by simp [tri]) (seqSched_ok tri 6) hv0
      (Y := ⟨2, 2, 0⟩) (by decide) rfl (Or.inr (Or.inl rfl)) hB normal (-1) hr (fun _ _ => id) hoB
    exact ⟨v0, v, hv0, hv, hq 0⟩
  have hv' : ∀ y : Fin 6 → ℝ, ∃ v : List ℝ, tri.value (loaded abs Real.sqrt id tri (fun _ => unitMaterial 2) (fun _ _ => id) e
      ⟨2, 2, 0⟩ triFaces (triNormal (List.ofFn y)) rule.weight (fun _ _ => id) oB bcs) (seqSched tri 6) [0, 0, 0, 0, 0, 0]
      [1, 1, 1] (List.ofFn y) = .ok v ∧ at0 v 0 - at0 (vf y) 0 =
        bndForce 2 ⟨2, 2, 0⟩ triFaces (triNormal (List.ofFn x0)) (List.ofFn y) bcs 0 -
        bndForce 2 ⟨2, 2, 0⟩ triFaces (triNormal (List.ofFn y)) (List.ofFn y) bcs 0 := by
    intro y
    obtain ⟨v0, v, a1, a2, a3⟩ := hval y (triNormal (List.ofFn y))
    obtain ⟨v0', v', b1, b2, b3⟩ := hval y (triNormal (List.ofFn x0))
    rw [a1] at b1
    cases b1
    have hvf := (h1 y).1
    have hvf : Res.ok v' = Res.ok (vf y) := b2.symm.trans hvf
    have hvf : v' = vf y := by injection hvf
    rw [← hvf]
    exact ⟨v, a2, by rw [a3, b3]; ring⟩
  choose v hv hd using hv'
  refine ⟨tri, triFaces, bcs, fun _ => unitMaterial 2, e, oB, List.range 3, seqSched tri 36, seqSched tri 6, _, _,
    rule, x0, v, J, tri_ok, hB, hr, hgood, hv, h2, 0, by decide, fun hder => ?_⟩
  have hb := hder.sub (h4 0)
  rw [sub_self] at hb
  have hl := hb.hasLineDerivAt (Pi.single (3 : Fin 6) (1 : ℝ))
  unfold HasLineDerivAt at hl
  have h2' : HasDerivAt (fun t : ℝ => at0 (v (x0 + t • Pi.single (3 : Fin 6) (1 : ℝ))) 0 -
      at0 (vf (x0 + t • Pi.single (3 : Fin 6) (1 : ℝ))) 0) (-(1 / 2)) 0 := by
    have h3 : HasDerivAt (fun t : ℝ => -(t / 2)) (-(1 / 2)) 0 := ((hasDerivAt_id (0 : ℝ)).div_const 2).neg
    refine h3.congr_of_eventuallyEq (Filter.Eventually.of_forall fun t => ?_)
    show at0 (v _) 0 - at0 (vf _) 0 = -(t / 2)
    refine (hd (x0 + t • Pi.single (3 : Fin 6) (1 : ℝ))).trans ?_
    rw [tri_pressure, tri_pressure]
    have e0 : List.ofFn x0 = [0, 0, 1, 0, 0, 1] := by simp [x0, List.ofFn_succ]
    have e1 : List.ofFn (x0 + t • Pi.single (3 : Fin 6) (1 : ℝ)) = [0, 0, 1, t, 0, 1] := by
      exact tri_line t
    rw [e0, e1]
    exact tri_turn t
  have := hl.unique h2'
  norm_num at this

end Plato.Bnd
