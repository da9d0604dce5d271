import Mathlib.Tactic.FieldSimp
import Mathlib.Tactic.LinearCombination
import Mathlib.Tactic.NormNum
import Verif.MeshMap.Adjoint

/-!
# Parent elements of mapped nodes (C18)
-/

namespace Plato

open Finset

variable {K : Type}

/-! ## Specification -/

/-- Six times the signed volume of a tetrahedron. -/
def tetVol [CommRing K] (p0 p1 p2 p3 : K × K × K) : K :=
  (p0.1 - p3.1) * ((p1.2.1 - p3.2.1) * (p2.2.2 - p3.2.2) - (p2.2.1 - p3.2.1) * (p1.2.2 - p3.2.2)) -
  (p1.1 - p3.1) * ((p0.2.1 - p3.2.1) * (p2.2.2 - p3.2.2) - (p2.2.1 - p3.2.1) * (p0.2.2 - p3.2.2)) +
  (p2.1 - p3.1) * ((p0.2.1 - p3.2.1) * (p1.2.2 - p3.2.2) - (p1.2.1 - p3.2.1) * (p0.2.2 - p3.2.2))

/-- `w` are barycentric coordinates of `p`: they sum to one and reproduce the point. -/
def IsBary [CommRing K] (p p0 p1 p2 p3 : K × K × K) (w : K × K × K × K) : Prop :=
  w.1 + w.2.1 + w.2.2.1 + w.2.2.2 = 1 ∧
  w.1 * p0.1 + w.2.1 * p1.1 + w.2.2.1 * p2.1 + w.2.2.2 * p3.1 = p.1 ∧
  w.1 * p0.2.1 + w.2.1 * p1.2.1 + w.2.2.1 * p2.2.1 + w.2.2.2 * p3.2.1 = p.2.1 ∧
  w.1 * p0.2.2 + w.2.1 * p1.2.2 + w.2.2.1 * p2.2.2 + w.2.2.2 * p3.2.2 = p.2.2

/-- All weights are nonnegative. -/
def NonnegW [Zero K] [LE K] (w : K × K × K × K) : Prop :=
  0 ≤ w.1 ∧ 0 ≤ w.2.1 ∧ 0 ≤ w.2.2.1 ∧ 0 ≤ w.2.2.2

/-- `p` lies in the tetrahedron. -/
def InTet [CommRing K] [LE K] (p p0 p1 p2 p3 : K × K × K) : Prop :=
  ∃ w, IsBary p p0 p1 p2 p3 w ∧ NonnegW w

/-! ## Weights -/

section weights

variable [Field K]

/-- The basis functor with points as arguments. -/
def basisAt (p p0 p1 p2 p3 : K × K × K) : K × K × K × K :=
  getBasis p.1 p.2.1 p.2.2 p0.1 p0.2.1 p0.2.2 p1.1 p1.2.1 p1.2.2 p2.1 p2.2.1 p2.2.2
    p3.1 p3.2.1 p3.2.2

/-- The computed weights are barycentric coordinates in every element with non-zero volume. -/
theorem basisAt_bary {p p0 p1 p2 p3 : K × K × K} (hv : tetVol p0 p1 p2 p3 ≠ 0) :
    IsBary p p0 p1 p2 p3 (basisAt p p0 p1 p2 p3) := by
  obtain ⟨x, y, z⟩ := p
  obtain ⟨x0, y0, z0⟩ := p0
  obtain ⟨x1, y1, z1⟩ := p1
  obtain ⟨x2, y2, z2⟩ := p2
  obtain ⟨x3, y3, z3⟩ := p3
  simp only [tetVol] at hv
  simp only [IsBary, basisAt, getBasis]
  generalize ha11 : x0 - x3 = a11 at *
  generalize ha12 : x1 - x3 = a12 at *
  generalize ha13 : x2 - x3 = a13 at *
  generalize ha21 : y0 - y3 = a21 at *
  generalize ha22 : y1 - y3 = a22 at *
  generalize ha23 : y2 - y3 = a23 at *
  generalize ha31 : z0 - z3 = a31 at *
  generalize ha32 : z1 - z3 = a32 at *
  generalize ha33 : z2 - z3 = a33 at *
  have e0 : x0 = a11 + x3 := by rw [← ha11]; ring
  have e1 : x1 = a12 + x3 := by rw [← ha12]; ring
  have e2 : x2 = a13 + x3 := by rw [← ha13]; ring
  have f0 : y0 = a21 + y3 := by rw [← ha21]; ring
  have f1 : y1 = a22 + y3 := by rw [← ha22]; ring
  have f2 : y2 = a23 + y3 := by rw [← ha23]; ring
  have g0 : z0 = a31 + z3 := by rw [← ha31]; ring
  have g1 : z1 = a32 + z3 := by rw [← ha32]; ring
  have g2 : z2 = a33 + z3 := by rw [← ha33]; ring
  have hd : a11*a22*a33+a12*a23*a31+a13*a21*a32-a11*a23*a32-a12*a21*a33-a13*a22*a31 ≠ 0 := by
    intro h; apply hv; rw [← h]; ring
  generalize hdet : a11*a22*a33+a12*a23*a31+a13*a21*a32-a11*a23*a32-a12*a21*a33-a13*a22*a31 = d at *
  subst e0 e1 e2 f0 f1 f2 g0 g1 g2
  refine ⟨by ring, ?_, ?_, ?_⟩
  · field_simp
    linear_combination (x - x3) * hdet
  · field_simp
    linear_combination (y - y3) * hdet
  · field_simp
    linear_combination (z - z3) * hdet

/-- Barycentric coordinates are unique in an element with non-zero volume. -/
theorem IsBary.unique {p p0 p1 p2 p3 : K × K × K} (hv : tetVol p0 p1 p2 p3 ≠ 0)
    {w w' : K × K × K × K} (h : IsBary p p0 p1 p2 p3 w) (h' : IsBary p p0 p1 p2 p3 w') : w = w' := by
  obtain ⟨x, y, z⟩ := p
  obtain ⟨x0, y0, z0⟩ := p0
  obtain ⟨x1, y1, z1⟩ := p1
  obtain ⟨x2, y2, z2⟩ := p2
  obtain ⟨x3, y3, z3⟩ := p3
  obtain ⟨a, b, c, d⟩ := w
  obtain ⟨a', b', c', d'⟩ := w'
  obtain ⟨h1, h2, h3, h4⟩ := h
  obtain ⟨k1, k2, k3, k4⟩ := h'
  simp only [tetVol] at *
  have ex : (a - a') * (x0 - x3) + (b - b') * (x1 - x3) + (c - c') * (x2 - x3) = 0 := by
    linear_combination h2 - k2 - x3 * h1 + x3 * k1
  have ey : (a - a') * (y0 - y3) + (b - b') * (y1 - y3) + (c - c') * (y2 - y3) = 0 := by
    linear_combination h3 - k3 - y3 * h1 + y3 * k1
  have ez : (a - a') * (z0 - z3) + (b - b') * (z1 - z3) + (c - c') * (z2 - z3) = 0 := by
    linear_combination h4 - k4 - z3 * h1 + z3 * k1
  generalize x0 - x3 = a11 at *
  generalize x1 - x3 = a12 at *
  generalize x2 - x3 = a13 at *
  generalize y0 - y3 = a21 at *
  generalize y1 - y3 = a22 at *
  generalize y2 - y3 = a23 at *
  generalize z0 - z3 = a31 at *
  generalize z1 - z3 = a32 at *
  generalize z2 - z3 = a33 at *
  have ha : a - a' = 0 := by
    have : (a - a') * (a11 * (a22 * a33 - a23 * a32) - a12 * (a21 * a33 - a23 * a31) +
        a13 * (a21 * a32 - a22 * a31)) = 0 := by
      linear_combination (a22 * a33 - a23 * a32) * ex - (a12 * a33 - a13 * a32) * ey +
        (a12 * a23 - a13 * a22) * ez
    exact (mul_eq_zero.1 this).resolve_right hv
  have hb : b - b' = 0 := by
    have : (b - b') * (a11 * (a22 * a33 - a23 * a32) - a12 * (a21 * a33 - a23 * a31) +
        a13 * (a21 * a32 - a22 * a31)) = 0 := by
      linear_combination (a23 * a31 - a21 * a33) * ex + (a11 * a33 - a13 * a31) * ey +
        (a13 * a21 - a11 * a23) * ez
    exact (mul_eq_zero.1 this).resolve_right hv
  have hc : c - c' = 0 := by
    have : (c - c') * (a11 * (a22 * a33 - a23 * a32) - a12 * (a21 * a33 - a23 * a31) +
        a13 * (a21 * a32 - a22 * a31)) = 0 := by
      linear_combination (a21 * a32 - a22 * a31) * ex + (a12 * a31 - a11 * a32) * ey +
        (a11 * a22 - a12 * a21) * ez
    exact (mul_eq_zero.1 this).resolve_right hv
  simp only [Prod.mk.injEq]
  refine ⟨sub_eq_zero.1 ha, sub_eq_zero.1 hb, sub_eq_zero.1 hc, ?_⟩
  linear_combination h1 - k1 - ha - hb - hc

end weights

section order

variable [Field K] [LinearOrder K] [IsStrictOrderedRing K]

omit [Field K] [IsStrictOrderedRing K] in
theorem lt_minBasis {t : K} (b : K × K × K × K) :
    t < minBasis b ↔ t < b.1 ∧ t < b.2.1 ∧ t < b.2.2.1 ∧ t < b.2.2.2 := by
  obtain ⟨b0, b1, b2, b3⟩ := b
  have key : ∀ u v : K, t < (if u < v then u else v) ↔ t < v ∧ t < u := by
    intro u v
    split_ifs with h
    · exact ⟨fun h' => ⟨h'.trans h, h'⟩, fun h' => h'.2⟩
    · exact ⟨fun h' => ⟨h', h'.trans_le (not_lt.1 h)⟩, fun h' => h'.1⟩
  simp only [minBasis, key, and_assoc]

/-- The box of an element is not smaller than its vertices. -/
theorem boxRange_mem (c0 c1 c2 c3 : K) : ∀ c ∈ [c0, c1, c2, c3],
    (boxRange c0 c1 c2 c3).1 ≤ c ∧ c ≤ (boxRange c0 c1 c2 c3).2 := by
  have key : ∀ (s : K × K) (c : K), s.1 ≤ s.2 →
      let s' := if c < s.1 then (c, s.2) else if s.2 < c then (s.1, c) else s
      s'.1 ≤ s.1 ∧ s.2 ≤ s'.2 ∧ s'.1 ≤ c ∧ c ≤ s'.2 := by
    intro s c hs
    simp only
    split_ifs with h1 h2
    · exact ⟨h1.le, le_refl _, le_refl _, (h1.trans_le hs).le⟩
    · exact ⟨le_refl _, h2.le, not_lt.1 h1, le_refl _⟩
    · exact ⟨le_refl _, le_refl _, not_lt.1 h1, not_lt.1 h2⟩
  simp only [boxRange]
  have k1 := key (c0, c0) c1 (le_refl _)
  simp only at k1
  generalize (if c1 < c0 then (c1, c0) else if c0 < c1 then (c0, c1) else (c0, c0)) = s1 at *
  have k2 := key s1 c2 (k1.2.2.1.trans k1.2.2.2)
  simp only at k2
  generalize (if c2 < s1.1 then (c2, s1.2) else if s1.2 < c2 then (s1.1, c2) else s1) = s2 at *
  have k3 := key s2 c3 (k2.2.2.1.trans k2.2.2.2)
  simp only at k3
  generalize (if c3 < s2.1 then (c3, s2.2) else if s2.2 < c3 then (s2.1, c3) else s2) = s3 at *
  have hl : 0 ≤ 1 / 100 * (s3.2 - s3.1) :=
    mul_nonneg (by norm_num) (by linarith [k3.2.2.1, k3.2.2.2])
  obtain ⟨a1, a2, a3, a4⟩ := k1
  obtain ⟨b1, b2, b3, b4⟩ := k2
  obtain ⟨d1, d2, d3, d4⟩ := k3
  intro c hc
  simp only [List.mem_cons, List.not_mem_nil, or_false] at hc
  rcases hc with rfl | rfl | rfl | rfl <;> constructor <;> linarith

/-- **C18**, candidates: a point in an element lies in its enlarged bounding box, in every
coordinate direction, so a query that returns every box containing the point returns the element. -/
theorem C18_box_contains {p p0 p1 p2 p3 : K × K × K} (h : InTet p p0 p1 p2 p3) :
    ((boxRange p0.1 p1.1 p2.1 p3.1).1 ≤ p.1 ∧ p.1 ≤ (boxRange p0.1 p1.1 p2.1 p3.1).2) ∧
    ((boxRange p0.2.1 p1.2.1 p2.2.1 p3.2.1).1 ≤ p.2.1 ∧
      p.2.1 ≤ (boxRange p0.2.1 p1.2.1 p2.2.1 p3.2.1).2) ∧
    ((boxRange p0.2.2 p1.2.2 p2.2.2 p3.2.2).1 ≤ p.2.2 ∧
      p.2.2 ≤ (boxRange p0.2.2 p1.2.2 p2.2.2 p3.2.2).2) := by
  have key : ∀ c0 c1 c2 c3 w0 w1 w2 w3 c : K, 0 ≤ w0 → 0 ≤ w1 → 0 ≤ w2 → 0 ≤ w3 →
      w0 + w1 + w2 + w3 = 1 → w0 * c0 + w1 * c1 + w2 * c2 + w3 * c3 = c →
      (boxRange c0 c1 c2 c3).1 ≤ c ∧ c ≤ (boxRange c0 c1 c2 c3).2 := by
    intro c0 c1 c2 c3 w0 w1 w2 w3 c h0 h1 h2 h3 hs hc
    have b := boxRange_mem c0 c1 c2 c3
    generalize boxRange c0 c1 c2 c3 = s at b
    have b0 := b c0 (by simp)
    have b1 := b c1 (by simp)
    have b2 := b c2 (by simp)
    have b3 := b c3 (by simp)
    constructor
    · have : s.1 = w0 * s.1 + w1 * s.1 + w2 * s.1 + w3 * s.1 := by linear_combination -s.1 * hs
      rw [this, ← hc]
      linarith [mul_le_mul_of_nonneg_left b0.1 h0, mul_le_mul_of_nonneg_left b1.1 h1,
        mul_le_mul_of_nonneg_left b2.1 h2, mul_le_mul_of_nonneg_left b3.1 h3]
    · have : s.2 = w0 * s.2 + w1 * s.2 + w2 * s.2 + w3 * s.2 := by linear_combination -s.2 * hs
      rw [this, ← hc]
      linarith [mul_le_mul_of_nonneg_left b0.2 h0, mul_le_mul_of_nonneg_left b1.2 h1,
        mul_le_mul_of_nonneg_left b2.2 h2, mul_le_mul_of_nonneg_left b3.2 h3]
  obtain ⟨w, ⟨hs, hx, hy, hz⟩, h0, h1, h2, h3⟩ := h
  exact ⟨key _ _ _ _ _ _ _ _ _ h0 h1 h2 h3 hs hx, key _ _ _ _ _ _ _ _ _ h0 h1 h2 h3 hs hy,
    key _ _ _ _ _ _ _ _ _ h0 h1 h2 h3 hs hz⟩

end order

/-! ## Selection -/

/-- A mesh with `nv` vertices and `ne` elements. -/
structure MapMesh.WF (m : MapMesh K) (nv ne : Nat) : Prop where
  c2n_length : m.c2n.length = ne * 4
  c2n_lt : ∀ k, k < ne * 4 → atN m.c2n k < nv
  coords_length : m.coords.length = nv * 3

/-- Views of `n` points. -/
def Pts.Len (P : Pts K) (n : Nat) : Prop := P.x.length = n ∧ P.y.length = n ∧ P.z.length = n

variable [Field K]

/-- Point of a view. -/
def Pts.pt (P : Pts K) (i : Nat) : K × K × K := (at0 P.x i, at0 P.y i, at0 P.z i)

/-- Vertex `j` of element `e`. -/
def MapMesh.vert (m : MapMesh K) (e j : Nat) : Nat := atN m.c2n (e * 4 + j)

/-- Coordinates of vertex `i`. -/
def MapMesh.pt (m : MapMesh K) (i : Nat) : K × K × K :=
  (at0 m.coords (i * 3), at0 m.coords (i * 3 + 1), at0 m.coords (i * 3 + 2))

/-- Corner `j` of element `e`. -/
def MapMesh.corner (m : MapMesh K) (e j : Nat) : K × K × K := m.pt (m.vert e j)

/-- Weights of the image of `node` in element `e`. -/
def MapMesh.weights (m : MapMesh K) (M : Pts K) (node e : Nat) : K × K × K × K :=
  basisAt (M.pt node) (m.corner e 0) (m.corner e 1) (m.corner e 2) (m.corner e 3)

theorem elemBasis_eq {m : MapMesh K} {nv ne : Nat} (h : m.WF nv ne) {M : Pts K} (hM : M.Len nv)
    {node e : Nat} (hn : node < nv) (he : e < ne) : elemBasis m M node e =
      Res.ok ((m.vert e 0, m.vert e 1, m.vert e 2, m.vert e 3), m.weights M node e) := by
  have hl := h.c2n_length
  have hc := h.coords_length
  have hv : ∀ j, j < 4 → m.vert e j < nv := fun j hj => h.c2n_lt _ (by omega)
  have hp : ∀ i, i < nv → m.point i = Res.ok (m.pt i) := by
    intro i hi
    unfold MapMesh.point
    rw [rd_at0 (by omega), Res.ok_bind, rd_at0 (by omega), Res.ok_bind, rd_at0 (by omega),
      Res.ok_bind]
    rfl
  have hverts : m.verts e = Res.ok (m.vert e 0, m.vert e 1, m.vert e 2, m.vert e 3) := by
    unfold MapMesh.verts
    rw [rd_atN (by omega), Res.ok_bind, rd_atN (by omega), Res.ok_bind, rd_atN (by omega),
      Res.ok_bind, rd_atN (by omega), Res.ok_bind]
    rfl
  obtain ⟨h1, h2, h3⟩ := hM
  unfold elemBasis
  rw [rd_at0 (by omega), Res.ok_bind, rd_at0 (by omega), Res.ok_bind, rd_at0 (by omega),
    Res.ok_bind, hverts, Res.ok_bind, hp _ (hv 0 (by omega)), Res.ok_bind, hp _ (hv 1 (by omega)),
    Res.ok_bind, hp _ (hv 2 (by omega)), Res.ok_bind, hp _ (hv 3 (by omega)), Res.ok_bind]
  rfl

section sel

variable [LinearOrder K]

/-- What the search returns: the last candidate whose smallest weight exceeds the sentinel. -/
def lastGood (m : MapMesh K) (notFound : K) (M : Pts K) (node : Nat) (cands : List Nat) :
    Option Nat :=
  (cands.filter fun e => decide (notFound < minBasis (m.weights M node e))).getLast?

/-- **C18**, selection as it is: a node that is not moved is `unmapped`; otherwise the result is the
*last* candidate whose smallest weight exceeds the sentinel `notFound` (`-1e8` in the code). -/
theorem C18_selected {m : MapMesh K} {nv ne : Nat} (h : m.WF nv ne) {L M : Pts K} (hL : L.Len nv)
    (hM : M.Len nv) (notFound : K) {cands : List Nat} (hc : ∀ e ∈ cands, e < ne) {node : Nat}
    (hn : node < nv) : findParent m notFound L M cands node =
      Res.ok (if L.pt node = M.pt node then Parent.unmapped
        else match lastGood m notFound M node cands with
          | some e => Parent.elem e
          | none => Parent.notFound) := by
  obtain ⟨l1, l2, l3⟩ := hL
  obtain ⟨m1, m2, m3⟩ := id hM
  unfold findParent
  rw [rd_at0 (by omega), Res.ok_bind, rd_at0 (by omega), Res.ok_bind, rd_at0 (by omega), Res.ok_bind,
    rd_at0 (by omega), Res.ok_bind, rd_at0 (by omega), Res.ok_bind, rd_at0 (by omega), Res.ok_bind]
  have hne : (at0 L.x node ≠ at0 M.x node ∨ at0 L.y node ≠ at0 M.y node ∨
      at0 L.z node ≠ at0 M.z node) ↔ ¬ L.pt node = M.pt node := by
    simp only [Pts.pt, Prod.mk.injEq]
    tauto
  by_cases hp : L.pt node = M.pt node
  · rw [if_neg (by rw [hne]; exact not_not.2 hp), if_pos hp]
    rfl
  · rw [if_pos (hne.2 hp), if_neg hp]
    rw [forRange_eq_from (fun k => match lastGood m notFound M node (cands.take k) with
      | some e => (minBasis (m.weights M node e), Parent.elem e)
      | none => (notFound, Parent.notFound)) (Nat.zero_le _) (by simp [lastGood])]
    · rw [Res.ok_bind, List.take_length]
      cases hg : lastGood m notFound M node cands with
      | none => simp
      | some e =>
        have hmem := List.mem_of_getLast? hg
        rw [List.mem_filter] at hmem
        have : notFound < minBasis (m.weights M node e) := by simpa using hmem.2
        simp only
        rw [if_pos this]
        rfl
    · intro k _ hk
      rw [rd_eq hk, Res.ok_bind, elemBasis_eq h hM hn (hc _ (List.getElem_mem hk)), Res.ok_bind]
      have ht : cands.take (k + 1) = cands.take k ++ [cands[k]] := by
        rw [List.take_add_one, List.getElem?_eq_getElem hk]; rfl
      by_cases hgood : notFound < minBasis (m.weights M node cands[k])
      · have : lastGood m notFound M node (cands.take (k + 1)) = some cands[k] := by
          unfold lastGood
          rw [ht, List.filter_append]
          simp [hgood]
        rw [this]
        simp only
        rw [if_pos hgood]
        rfl
      · have : lastGood m notFound M node (cands.take (k + 1)) =
            lastGood m notFound M node (cands.take k) := by
          unfold lastGood
          rw [ht, List.filter_append]
          simp [hgood]
        rw [this]
        simp only
        rw [if_neg hgood]
        rfl

end sel

end Plato
