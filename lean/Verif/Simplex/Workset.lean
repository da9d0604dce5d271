import Verif.Simplex.Volume
import Verif.Common.Par
import Mathlib.Tactic.NormNum

/-!
# Gradient workset (C20)

`ComputeGradientWorkset` called from a parallel loop over the cells, for every mesh.
-/

namespace Plato

open Finset

section Par

variable {K : Type} [Field K] [LinearOrder K]

/-- The functor in any of the three dimensions. -/
theorem computeGradient_ok {d cell : ℕ} {g cfg : V3 K} {vol : List K} (hd : d = 1 ∨ d = 2 ∨ d = 3)
    (hc : cell < cfg.d0) (h1 : cfg.d1 = d + 1) (h2 : cfg.d2 = d) (hg : cell < g.d0)
    (hg1 : g.d1 = d + 1) (hg2 : g.d2 = d) (hv : cell < vol.length) :
    ∃ g' vol', computeGradient abs d cell g cfg vol = .ok (g', vol') ∧
      GradResult d cell cfg g g' vol vol' := by
  rcases hd with rfl | rfl | rfl
  · exact gradient1_ok hc h1 h2 hg hg1 hg2 hv
  · exact gradient2_ok hc h1 h2 hg hg1 hg2 hv
  · exact gradient3_ok hc h1 h2 hg hg1 hg2 hv

/-- C20. A parallel loop over the cells in any order: the gradients of every non-degenerate cell
reproduce the gradient of every affine field and sum to zero over the nodes, and the volume factor
of every cell is the absolute value of the determinant of its edge vectors. -/
theorem C20 {d n : ℕ} (hd : d = 1 ∨ d = 2 ∨ d = 3) {order : List ℕ} (hs : IsSchedule order n)
    {g cfg : V3 K} {vol : List K} (hc : n ≤ cfg.d0) (h1 : cfg.d1 = d + 1) (h2 : cfg.d2 = d)
    (hg : n ≤ g.d0) (hg1 : g.d1 = d + 1) (hg2 : g.d2 = d) (hv : n ≤ vol.length) :
    ∃ g' vol', parFor order (g, vol) (fun cell s => computeGradient abs d cell s.1 cfg s.2) =
        .ok (g', vol') ∧
      (g'.d0 = g.d0 ∧ g'.d1 = g.d1 ∧ g'.d2 = g.d2) ∧ vol'.length = vol.length ∧
      ∀ cell, cell < n →
        vol'[cell]? = some |(edges (nodesOf d cfg cell)).det| ∧
        ((edges (nodesOf d cfg cell)).det ≠ 0 →
          Reproduces (nodesOf d cfg cell) (fun a k => g'.e cell a k) ∧
          ∀ k : Fin d, ∑ a : Fin (d + 1), g'.e cell a k = 0) := by
  have h := parFor_posts (body := fun cell (s : V3 K × List K) => computeGradient abs d cell s.1 cfg s.2) hs
    (fun s => (s.1.d0 = g.d0 ∧ s.1.d1 = g.d1 ∧ s.1.d2 = g.d2) ∧ s.2.length = vol.length)
    (fun cell s => s.2[cell]? = some |(edges (nodesOf d cfg cell)).det| ∧
        ((edges (nodesOf d cfg cell)).det ≠ 0 →
          Reproduces (nodesOf d cfg cell) (fun a k => s.1.e cell a k)))
    (s := (g, vol)) ⟨⟨rfl, rfl, rfl⟩, rfl⟩ ?_
  · obtain ⟨⟨g', vol'⟩, hrun, ⟨hdims, hlen⟩, hpost⟩ := h
    refine ⟨g', vol', hrun, hdims, hlen, fun cell hcell => ⟨(hpost cell hcell).1, fun hdet => ?_⟩⟩
    have := (hpost cell hcell).2 hdet
    exact ⟨this, this.sum_zero⟩
  · rintro cell ⟨g0, vol0⟩ hcell ⟨⟨hd0, hd1, hd2⟩, hl⟩
    dsimp only at hd0 hd1 hd2 hl
    obtain ⟨g', vol', hrun, hres⟩ := computeGradient_ok (cell := cell) (g := g0) (cfg := cfg) (vol := vol0)
      hd (by omega) h1 h2 (by omega) (by omega) (by omega) (by omega)
    refine ⟨(g', vol'), hrun, ⟨⟨hres.dims.1.trans hd0, hres.dims.2.1.trans hd1,
      hres.dims.2.2.trans hd2⟩, by rw [hres.vol, List.length_set]; exact hl⟩, ⟨?_, hres.grad⟩, ?_⟩
    · rw [hres.vol, List.getElem?_set_self (by omega)]
    · rintro j hj hne ⟨hp1, hp2⟩
      refine ⟨?_, fun hdet => ?_⟩
      · rw [hres.vol]
        dsimp only
        rw [List.getElem?_set_ne (by omega)]
        exact hp1
      · have := hp2 hdet
        dsimp only at this ⊢
        rw [hres.frame j hne]
        exact this

/-- The cell volume functor computes the same factor. -/
theorem C20_cellVolume {d cell : ℕ} {cfg : V3 K} (hd : d = 1 ∨ d = 2 ∨ d = 3)
    (hc : cell < cfg.d0) (h1 : cfg.d1 = d + 1) (h2 : cfg.d2 = d) :
    computeCellVolume abs d cell cfg = .ok |(edges (nodesOf d cfg cell)).det| := by
  rcases hd with rfl | rfl | rfl
  · have hr : ∀ n i, n < 2 → i < 1 → vrd3 cfg cell n i = .ok (cfg.e cell n i) := fun n i hn hi =>
      vrd3_ok hc (by omega) (by omega)
    simp (disch := omega) only [computeCellVolume, computeCellVolume1, hr, Res.ok_bind, Res.pure_eq, edges_det1]
    rfl
  · have hr : ∀ n i, n < 3 → i < 2 → vrd3 cfg cell n i = .ok (cfg.e cell n i) := fun n i hn hi =>
      vrd3_ok hc (by omega) (by omega)
    simp (disch := omega) only [computeCellVolume, computeCellVolume2, hr, Res.ok_bind, Res.pure_eq, edges_det2]
    rfl
  · have hr : ∀ n i, n < 4 → i < 3 → vrd3 cfg cell n i = .ok (cfg.e cell n i) := fun n i hn hi =>
      vrd3_ok hc (by omega) (by omega)
    simp (disch := omega) only [computeCellVolume, computeCellVolume3, hr, Res.ok_bind, Res.pure_eq, edges_det3]
    rfl

end Par

open MeasureTheory in
/-- The factor times the weight of the one point rule is the measure of the cell. -/
theorem C20_volume {d n : ℕ} (hd : d = 1 ∨ d = 2 ∨ d = 3) {order : List ℕ} (hs : IsSchedule order n)
    {g cfg : V3 ℝ} {vol : List ℝ} (hc : n ≤ cfg.d0) (h1 : cfg.d1 = d + 1) (h2 : cfg.d2 = d)
    (hg : n ≤ g.d0) (hg1 : g.d1 = d + 1) (hg2 : g.d2 = d) (hv : n ≤ vol.length) :
    ∃ g' vol', parFor order (g, vol) (fun cell s => computeGradient abs d cell s.1 cfg s.2) =
        .ok (g', vol') ∧
      ∀ cell, cell < n → ∃ v, vol'[cell]? = some v ∧
        v * (1 / (d.factorial : ℝ)) = volume.real (convexHull ℝ (Set.range (nodesOf d cfg cell))) := by
  obtain ⟨g', vol', hrun, _, _, h⟩ := C20 hd hs hc h1 h2 hg hg1 hg2 hv
  refine ⟨g', vol', hrun, fun cell hcell => ⟨_, (h cell hcell).1, ?_⟩⟩
  rw [volume_simplex]
  ring

open MeasureTheory in
/-- `ComputeVolume` of the level set code gives the measure of triangles and tetrahedra. -/
theorem C20_computeVolume {d : ℕ} (hd : d = 2 ∨ d = 3) (X : Fin (d + 1) → Fin d → ℝ) :
    computeVolume abs d (edges X).det = volume.real (convexHull ℝ (Set.range X)) := by
  rw [volume_simplex]
  rcases hd with rfl | rfl
  · simp [computeVolume, Nat.factorial]
    ring
  · simp [computeVolume, Nat.factorial]
    ring

open MeasureTheory in
/-- ... but not the length of segments: `ComputeVolume<1>` of the unit segment is `1/6`. -/
theorem C20_computeVolume_segment_false : ∃ X : Fin 2 → Fin 1 → ℝ,
    computeVolume abs 1 (edges X).det ≠ volume.real (convexHull ℝ (Set.range X)) := by
  refine ⟨fun n _ => if n = 0 then 1 else 0, ?_⟩
  rw [volume_simplex, edges_det1]
  norm_num [computeVolume]

/-- The hypotheses of `C20` hold: one cell, the reference triangle. -/
example : ∃ cfg : V3 ℚ, (1 ≤ cfg.d0 ∧ cfg.d1 = 2 + 1 ∧ cfg.d2 = 2) ∧
    (edges (nodesOf 2 cfg 0)).det ≠ 0 ∧ IsSchedule [0] 1 := by
  refine ⟨⟨1, 3, 2, fun _ n i => if n = i then 1 else 0⟩, ⟨le_rfl, rfl, rfl⟩, ?_, ?_⟩
  · rw [edges_det2]
    norm_num [nodesOf]
  · exact IsSchedule.range 1

end Plato
