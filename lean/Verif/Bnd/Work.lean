import Verif.Bnd.Value

/-!
# C48: virtual work and resultant of the boundary loads
-/

namespace Plato.Bnd
open Finset Plato Plato.Mech MeasureTheory

theorem faceShape_continuous (d n : Nat) : Continuous (faceShape d n) := by
  unfold faceShape
  split_ifs with h
  · exact continuous_apply _
  · exact continuous_const.sub (continuous_finsetSum _ fun i _ => continuous_apply i)

theorem faceIntegral_sum {α : Type} (d : Nat) (X : Nat → Nat → ℝ) (s : Finset α) (φ : α → (Fin (d - 1) → ℝ) → ℝ)
    (h : ∀ a ∈ s, Continuous (φ a)) :
    faceIntegral d X (fun ξ => ∑ a ∈ s, φ a ξ) = ∑ a ∈ s, faceIntegral d X (φ a) := by
  unfold faceIntegral
  simp only [sum_mul]
  refine integral_finsetSum s fun a ha => ?_
  exact ((h a ha).mul continuous_const).continuousOn.integrableOn_compact (simplexSet_isCompact _ 1)

/-- Component `k` of a nodal field on the face. -/
noncomputable def faceField (d : Nat) (Y : Layout) (F : Faces) (W : List ℝ) (face k : Nat) (ξ : Fin (d - 1) → ℝ) : ℝ :=
  ∑ n ∈ range d, faceShape d n ξ * at0 W (Y.dofsPerNode * F.node d face n + (k + Y.offset))

/-- **C48**, virtual work on one face: the nodal forces do the work of the traction on the field. -/
theorem faceForce_work {d nn : Nat} {Y : Layout} (hY : Y.numDofs + Y.offset ≤ Y.dofsPerNode) {F : Faces} {face : Nat}
    (hn : ∀ n, n < d → F.node d face n < nn) (x : List ℝ) (t : Nat → ℝ) (W : List ℝ) :
    ∑ q ∈ range (nn * Y.dofsPerNode), faceForce d Y F x face t q * at0 W q =
      faceIntegral d (F.coords d x face) fun ξ => ∑ k ∈ range Y.numDofs, t k * faceField d Y F W face k ξ := by
  have e1 : ∀ ξ, ∑ k ∈ range Y.numDofs, t k * faceField d Y F W face k ξ = ∑ n ∈ range d, ∑ k ∈ range Y.numDofs,
      at0 W (Y.dofsPerNode * F.node d face n + (k + Y.offset)) * (t k * faceShape d n ξ) := by
    intro ξ
    unfold faceField
    simp only [mul_sum]
    rw [sum_comm]
    exact sum_congr rfl fun n _ => sum_congr rfl fun k _ => by ring
  simp only [e1]
  have hc : ∀ (a b : ℝ) n, Continuous fun ξ : Fin (d - 1) → ℝ => a * (b * faceShape d n ξ) := fun a b n =>
    continuous_const.mul (continuous_const.mul (faceShape_continuous d n))
  rw [faceIntegral_sum _ _ _ _ fun n _ => continuous_finsetSum _ fun k _ => hc _ _ n]
  unfold faceForce
  simp only [sum_mul]
  rw [sum_comm]
  refine sum_congr rfl fun n hnn => ?_
  rw [faceIntegral_sum _ _ _ _ fun k _ => hc _ _ n, sum_comm]
  refine sum_congr rfl fun k hk => ?_
  have hk := mem_range.1 hk
  have hlt : Y.dofsPerNode * F.node d face n + (k + Y.offset) < nn * Y.dofsPerNode := by
    exact block_lt (show k + Y.offset < Y.dofsPerNode by omega) (hn n (mem_range.1 hnn))
  rw [sum_eq_single_of_mem _ (mem_range.2 hlt)]
  · rw [if_pos rfl, faceIntegral_const_mul _ _ (at0 W _) (fun ξ => t k * faceShape d n ξ), mul_comm]
  · intro q _ hq
    rw [if_neg fun h => hq h.symm, zero_mul]

theorem listSum_mul_sum {α : Type} (l : List α) (f : α → Nat → ℝ) (g : Nat → ℝ) (s : Finset Nat) :
    ∑ q ∈ s, (l.map fun a => f a q).sum * g q = (l.map fun a => ∑ q ∈ s, f a q * g q).sum := by
  induction l with
  | nil => simp
  | cons a l ih =>
    simp only [List.map_cons, List.sum_cons, add_mul, sum_add_distrib]
    rw [ih]

/-- **C48**, virtual work: with the boundary conditions every nodal field `W` does the work it does without them plus
the scale times the surface integrals of traction times field. -/
theorem C48_work {d nn nc : Nat} {c2n : List Nat} {Y : Layout} (hY : Y.numDofs + Y.offset ≤ Y.dofsPerNode) {F : Faces}
    {bcs : List NaturalBC} (hB : BCsOk d nc c2n F bcs) (hm : Mesh c2n (d + 1) nc nn)
    (normal : Nat → Nat → Nat → ℝ) (x W : List ℝ) :
    ∑ q ∈ range (nn * Y.dofsPerNode), bndForce d Y F normal x bcs q * at0 W q =
      (bcs.map fun B => (B.set.map fun face => ((F.cellsOf face).map fun cell =>
        faceIntegral d (F.coords d x face) fun ξ => ∑ k ∈ range Y.numDofs,
          B.traction d F normal cell face k * faceField d Y F W face k ξ).sum).sum).sum := by
  unfold bndForce
  rw [listSum_mul_sum]
  congr 1
  refine List.map_congr_left fun B hBm => ?_
  rw [listSum_mul_sum]
  congr 1
  refine List.map_congr_left fun face hface => ?_
  rw [listSum_mul_sum]
  congr 1
  refine List.map_congr_left fun cell hcell => ?_
  refine faceForce_work hY (fun n hn => ?_) x _ W
  have hF := hB.faces B hBm
  obtain ⟨l1, l2⟩ := localOf_spec (hF.sub face hface cell hcell n hn)
  have := hm.node_lt (hF.cell face hface cell hcell) l1
  rw [l2] at this
  exact this

/-- **C48**, resultant: the sum of the forces on component `k` is traction times area. -/
theorem C48_resultant {d nn : Nat} (hd0 : d ≠ 0) {Y : Layout} (hY : Y.numDofs + Y.offset ≤ Y.dofsPerNode) {F : Faces} {face : Nat}
    (hn : ∀ n, n < d → F.node d face n < nn) (x : List ℝ) (t : Nat → ℝ) {k : Nat} (hk : k < Y.numDofs) :
    ∑ a ∈ range nn, faceForce d Y F x face t (Y.dofsPerNode * a + (k + Y.offset)) =
      t k * faceArea d (F.coords d x face) := by
  have hpos : 0 < Y.dofsPerNode := by omega
  let W : List ℝ := (List.range (nn * Y.dofsPerNode)).map fun q => if q % Y.dofsPerNode = k + Y.offset then 1 else 0
  have hW : ∀ a j, a < nn → j < Y.dofsPerNode → at0 W (Y.dofsPerNode * a + j) = if j = k + Y.offset then 1 else 0 := by
    intro a j ha hj
    have : Y.dofsPerNode * a + j < nn * Y.dofsPerNode := block_lt hj ha
    show at0 ((List.range (nn * Y.dofsPerNode)).map _) _ = _
    rw [at0_map_range _ _ _ this, mod_block hj]
  have h := faceForce_work hY hn x t W
  have e1 : ∀ ξ, ∑ k' ∈ range Y.numDofs, t k' * faceField d Y F W face k' ξ = t k * 1 := by
    intro ξ
    have e2 : ∀ k' ∈ range Y.numDofs, t k' * faceField d Y F W face k' ξ = if k' = k then t k else 0 := by
      intro k' hk'
      have hk' := mem_range.1 hk'
      unfold faceField
      have e3 : ∀ n ∈ range d, faceShape d n ξ * at0 W (Y.dofsPerNode * F.node d face n + (k' + Y.offset)) =
          faceShape d n ξ * if k' = k then 1 else 0 := by
        intro n hnn
        rw [hW _ _ (hn n (mem_range.1 hnn)) (by omega)]
        simp
      rw [sum_congr rfl e3, ← sum_mul, faceShape_sum hd0, one_mul]
      split_ifs with hkk
      · rw [hkk, mul_one]
      · rw [mul_zero]
    rw [sum_congr rfl e2, sum_ite_eq' , if_pos (mem_range.2 hk), mul_one]
  simp only [e1] at h
  rw [faceIntegral_const_mul] at h
  unfold faceArea
  rw [← h, sum_range_blocks]
  refine sum_congr rfl fun a ha => ?_
  have ha := mem_range.1 ha
  rw [sum_eq_single_of_mem (k + Y.offset) (mem_range.2 (by omega))]
  · rw [Nat.mul_comm a, hW a _ ha (by omega), if_pos rfl, mul_one]
  · intro j hj hne
    rw [Nat.mul_comm a, hW a j ha (mem_range.1 hj), if_neg hne, mul_zero]

end Plato.Bnd
