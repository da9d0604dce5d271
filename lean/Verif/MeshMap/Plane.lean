import Mathlib.Analysis.SpecialFunctions.Sqrt
import Mathlib.Tactic.FieldSimp
import Mathlib.Tactic.LinearCombination
import Verif.MeshMap.Model

/-!
# The symmetry plane (C19)
-/

namespace Plato

/-- Signed offset of `p` from the plane through `o` orthogonal to `v`, times the length of `v`. -/
def side (o v p : ℝ × ℝ × ℝ) : ℝ :=
  (p.1 - o.1) * v.1 + (p.2.1 - o.2.1) * v.2.1 + (p.2.2 - o.2.2) * v.2.2

/-- `q` is the mirror image of `p` across the plane through `o` orthogonal to `v`: the middle of
the segment lies in the plane and the segment is orthogonal to the plane. -/
def IsMirror (o v p q : ℝ × ℝ × ℝ) : Prop :=
  side o v ((p.1 + q.1) / 2, (p.2.1 + q.2.1) / 2, (p.2.2 + q.2.2) / 2) = 0 ∧
  ∃ t : ℝ, q.1 - p.1 = t * v.1 ∧ q.2.1 - p.2.1 = t * v.2.1 ∧ q.2.2 - p.2.2 = t * v.2.2

/-- Mirror images are unique, so `IsMirror` determines the image. -/
theorem IsMirror.unique {o v p q q' : ℝ × ℝ × ℝ} (hv : v ≠ (0, 0, 0)) (h : IsMirror o v p q)
    (h' : IsMirror o v p q') : q = q' := by
  obtain ⟨h1, t, a1, a2, a3⟩ := h
  obtain ⟨h2, t', b1, b2, b3⟩ := h'
  obtain ⟨v1, v2, v3⟩ := v
  obtain ⟨q1, q2, q3⟩ := q
  obtain ⟨r1, r2, r3⟩ := q'
  simp only [side] at *
  have hpos : v1 * v1 + v2 * v2 + v3 * v3 ≠ 0 := by
    intro hz
    apply hv
    have e1 : v1 = 0 := by nlinarith [mul_self_nonneg v1, mul_self_nonneg v2, mul_self_nonneg v3]
    have e2 : v2 = 0 := by nlinarith [mul_self_nonneg v1, mul_self_nonneg v2, mul_self_nonneg v3]
    have e3 : v3 = 0 := by nlinarith [mul_self_nonneg v1, mul_self_nonneg v2, mul_self_nonneg v3]
    rw [e1, e2, e3]
  have ht : t = t' := by
    have : (t - t') * (v1 * v1 + v2 * v2 + v3 * v3) = 0 := by
      linear_combination 2 * h1 - 2 * h2 - v1 * a1 - v2 * a2 - v3 * a3 + v1 * b1 + v2 * b2 + v3 * b3
    rcases mul_eq_zero.1 this with h | h
    · linarith
    · exact absurd h hpos
  subst ht
  simp only [Prod.mk.injEq]
  exact ⟨by linarith, by linarith, by linarith⟩

/-- **C19**: for every origin, every non-zero normal and every point, the constructor accepts the
plane, points on the kept side (the side the normal points to, and the plane itself) are fixed,
other points go to their mirror image, the image lies on the kept side, mapping twice equals mapping
once and the distance to the plane is preserved. -/
theorem C19_plane (o v : ℝ × ℝ × ℝ) (hv : v ≠ (0, 0, 0)) :
    ∃ pl, Plane.make Real.sqrt o v = Res.ok pl ∧ ∀ p,
      (0 ≤ side o v p → pl.map p = p) ∧
      (side o v p < 0 → IsMirror o v p (pl.map p)) ∧
      0 ≤ side o v (pl.map p) ∧
      pl.map (pl.map p) = pl.map p ∧
      |side o v (pl.map p)| = |side o v p| := by
  obtain ⟨v1, v2, v3⟩ := v
  have hpos : 0 < v1 * v1 + v2 * v2 + v3 * v3 := by
    rcases lt_or_eq_of_le (show 0 ≤ v1 * v1 + v2 * v2 + v3 * v3 by
      nlinarith [mul_self_nonneg v1, mul_self_nonneg v2, mul_self_nonneg v3]) with h | hz
    · exact h
    · exfalso
      apply hv
      have e1 : v1 = 0 := by nlinarith [mul_self_nonneg v1, mul_self_nonneg v2, mul_self_nonneg v3]
      have e2 : v2 = 0 := by nlinarith [mul_self_nonneg v1, mul_self_nonneg v2, mul_self_nonneg v3]
      have e3 : v3 = 0 := by nlinarith [mul_self_nonneg v1, mul_self_nonneg v2, mul_self_nonneg v3]
      rw [e1, e2, e3]
  refine ⟨_, if_neg (ne_of_gt hpos), ?_⟩
  set l := Real.sqrt (v1 * v1 + v2 * v2 + v3 * v3) with hl
  have hlpos : 0 < l := Real.sqrt_pos.2 hpos
  have hl2 : l * l = v1 * v1 + v2 * v2 + v3 * v3 := Real.mul_self_sqrt hpos.le
  have hl0 : l ≠ 0 := ne_of_gt hlpos
  have hproj : ∀ p : ℝ × ℝ × ℝ, 0 + (p.1 - o.1) * (v1 / l) + (p.2.1 - o.2.1) * (v2 / l) +
      (p.2.2 - o.2.2) * (v3 / l) = side o (v1, v2, v3) p / l := by
    intro p; simp only [side]; ring
  have hmap : ∀ p, Plane.map ⟨o, (v1 / l, v2 / l, v3 / l)⟩ p =
      if side o (v1, v2, v3) p < 0 then
        (p.1 - 2 * (side o (v1, v2, v3) p / l) * (v1 / l),
          p.2.1 - 2 * (side o (v1, v2, v3) p / l) * (v2 / l),
          p.2.2 - 2 * (side o (v1, v2, v3) p / l) * (v3 / l)) else p := by
    intro p
    simp only [Plane.map]
    rw [hproj]
    by_cases h : side o (v1, v2, v3) p < 0
    · rw [if_pos h, if_pos (div_neg_of_neg_of_pos h hlpos)]
    · rw [if_neg h, if_neg (not_lt.2 (div_nonneg (not_lt.1 h) hlpos.le))]
  have hrefl : ∀ p, side o (v1, v2, v3) p < 0 →
      side o (v1, v2, v3) (Plane.map ⟨o, (v1 / l, v2 / l, v3 / l)⟩ p) = - side o (v1, v2, v3) p := by
    intro p hp
    rw [hmap, if_pos hp]
    generalize hs : side o (v1, v2, v3) p = s
    simp only [side] at hs ⊢
    have : 2 * (s / l) * (v1 / l) * v1 + 2 * (s / l) * (v2 / l) * v2 + 2 * (s / l) * (v3 / l) * v3 =
        2 * s := by
      field_simp
      linear_combination (-1) * s * hl2
    linear_combination hs - this
  have hkeep : ∀ p, 0 ≤ side o (v1, v2, v3) p →
      Plane.map ⟨o, (v1 / l, v2 / l, v3 / l)⟩ p = p := fun p hp => by
    rw [hmap, if_neg (not_lt.2 hp)]
  intro p
  refine ⟨hkeep p, ?_, ?_⟩
  · intro hp
    have hr := hrefl p hp
    rw [hmap, if_pos hp] at hr ⊢
    refine ⟨?_, -2 * (side o (v1, v2, v3) p / l) / l, ?_, ?_, ?_⟩
    · simp only [side] at hr ⊢
      linear_combination hr / 2
    · simp only; ring
    · simp only; ring
    · simp only; ring
  · by_cases hp : side o (v1, v2, v3) p < 0
    · have hr := hrefl p hp
      refine ⟨by rw [hr]; linarith, hkeep _ (by rw [hr]; linarith), by rw [hr, abs_neg]⟩
    · have hp := not_lt.1 hp
      rw [hkeep p hp]
      exact ⟨hp, hkeep p hp, rfl⟩

/-- A zero normal is rejected. -/
theorem C19_zero_normal (o : ℝ × ℝ × ℝ) : Plane.make Real.sqrt o (0, 0, 0) =
    Res.err "SymmetryPlane: Normal vector has zero length." := by
  unfold Plane.make
  simp

/-- A point that is moved: plane `x = 1` with normal `(2,0,0)`, point at the origin. -/
example : side (1, 0, 0) (2, 0, 0) (0, 0, 0) < 0 ∧
    IsMirror (1, 0, 0) (2, 0, 0) (0, 0, 0) (2, 0, 0) := by
  refine ⟨by norm_num [side], by norm_num [side], 1, ?_⟩
  norm_num

end Plato
