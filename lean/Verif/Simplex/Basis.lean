import Mathlib.Algebra.BigOperators.Fin
import Mathlib.Algebra.BigOperators.Group.Finset.Basic
import Mathlib.Algebra.BigOperators.Ring.Finset
import Mathlib.Tactic.Ring
import Mathlib.Tactic.Abel
import Verif.Blas.Matrix
import Verif.Simplex.Model

/-!
# Nodal basis (C22)
-/

namespace Plato

open Finset

variable {K : Type} [Field K]

/-- `getRefCoords` stores the unit vectors and the origin as last node. -/
theorem refCoords_ok {dim : Nat} {order : List Nat} (hs : IsSchedule order dim) {coords : V2 K}
    (h0 : coords.d0 = dim + 1) (h1 : coords.d1 = dim) :
    getRefCoords order coords =
      .ok ⟨dim + 1, dim, fun r c => if r = c ∧ r < dim then 1 else 0⟩ := by
  rw [getRefCoords, parFor_rows hs (fun i f c => if c = i then 1 else f c)]
  · obtain ⟨d0, d1, e⟩ := coords
    simp only at h0 h1
    subst h0 h1
    congr 2
    funext r c
    by_cases h : r < d1
    · by_cases h' : r = c
      · subst h'; simp [h]
      · simp [h, h', Ne.symm h']
    · simp [h]
  · intro i z hi hz0 hz1
    simp only at hz0 hz1
    simp only [vwr2, V2.row, if_pos (show i < z.d0 ∧ i < z.d1 by omega)]
    congr 2
    funext r c
    by_cases h : r = i
    · subst h; simp
    · simp [h]

/-- One column of `getBasisValues`. -/
theorem basisValues_ok {np : Nat} {order : List Nat} (hs : IsSchedule order np) {ref values : V2 K}
    (hr : ref.d0 = np) (hv0 : values.d0 = ref.d1 + 1) (hv1 : values.d1 = np) :
    ∃ v, getBasisValues order ref values = .ok v ∧ v.d0 = ref.d1 + 1 ∧ v.d1 = np ∧
      ∀ pt, pt < np → (∀ b, b < ref.d1 → v.e b pt = ref.e pt b) ∧
        v.e ref.d1 pt = 1 - ∑ b ∈ range ref.d1, ref.e pt b := by
  obtain ⟨v, hv, ⟨h1, h2⟩, h3⟩ := parFor_posts hs (s := values) (body := fun pt values => do
      let (values, final) ← forRange 0 ref.d1 (values, (1 : K)) fun b (s : V2 K × K) => do
        let x ← vrd2 ref pt b
        let v ← vwr2 s.1 b pt x
        pure (v, s.2 - x)
      vwr2 values ref.d1 pt final)
    (fun v => v.d0 = ref.d1 + 1 ∧ v.d1 = np)
    (fun pt v => (∀ b, b < ref.d1 → v.e b pt = ref.e pt b) ∧
        v.e ref.d1 pt = 1 - ∑ b ∈ range ref.d1, ref.e pt b) ⟨hv0, hv1⟩ (by
      rintro pt z hpt ⟨hz0, hz1⟩
      have hloop := forRange_eq (n := ref.d1) (body := fun b (s : V2 K × K) => do
        let x ← vrd2 ref pt b
        let v ← vwr2 s.1 b pt x
        pure (v, s.2 - x))
        (fun k => ((⟨z.d0, z.d1, fun r c => if c = pt ∧ r < k then ref.e pt r else z.e r c⟩ : V2 K),
          1 - ∑ b ∈ range k, ref.e pt b)) (by
        intro k hk
        rw [vrd2_ok (by omega) hk, Res.ok_bind, vwr2, if_pos ⟨by simp only; omega, by simp only; omega⟩]
        simp only [Res.ok_bind, Res.pure_eq, Finset.sum_range_succ]
        congr 2
        · congr 1
          funext r c
          by_cases h : r = k ∧ c = pt
          · obtain ⟨rfl, rfl⟩ := h; simp
          · by_cases hc : c = pt
            · have hrk : r ≠ k := fun hh => h ⟨hh, hc⟩
              have : r < k + 1 ↔ r < k := by omega
              simp [hc, hrk, this]
            · simp [hc]
        · ring)
      simp only [Nat.not_lt_zero, and_false, if_false, Finset.range_zero, Finset.sum_empty,
        sub_zero] at hloop
      rw [show (⟨z.d0, z.d1, fun r c => z.e r c⟩ : V2 K) = z from rfl] at hloop
      rw [hloop]
      simp only [Res.ok_bind, vwr2]
      rw [if_pos ⟨by omega, by omega⟩, Res.sat_ok]
      refine ⟨⟨hz0, hz1⟩, ⟨?_, by simp⟩, ?_⟩
      · intro b hb
        simp [hb, show b ≠ ref.d1 by omega]
      · rintro q - hq ⟨h1, h2⟩
        refine ⟨fun b hb => ?_, ?_⟩
        · simp [hq, h1 b hb]
        · simp [hq, h2])
  exact ⟨v, hv, h1, h2, h3⟩

/-- **C22**, values: at every point the basis values add up to one. -/
theorem C22_partition {np : Nat} {order : List Nat} (hs : IsSchedule order np) {ref values : V2 K}
    (hr : ref.d0 = np) (hv0 : values.d0 = ref.d1 + 1) (hv1 : values.d1 = np) :
    ∃ v, getBasisValues order ref values = .ok v ∧ v.d0 = ref.d1 + 1 ∧ v.d1 = np ∧
      ∀ pt, pt < np → ∑ b ∈ range (ref.d1 + 1), v.e b pt = 1 ∧
        ∀ d, d < ref.d1 → ∑ b ∈ range (ref.d1 + 1), v.e b pt *
          (if b = d ∧ b < ref.d1 then 1 else 0) = ref.e pt d := by
  obtain ⟨v, h, h0, h1, h2⟩ := basisValues_ok hs hr hv0 hv1
  refine ⟨v, h, h0, h1, fun pt hpt => ⟨?_, fun d hd => ?_⟩⟩
  · rw [Finset.sum_range_succ, (h2 pt hpt).2,
      Finset.sum_congr rfl fun b hb => (h2 pt hpt).1 b (Finset.mem_range.mp hb)]
    ring
  · rw [Finset.sum_range_succ, Finset.sum_eq_single d]
    · simp [hd, (h2 pt hpt).1 d hd]
    · intro b _ hb; simp [hb]
    · intro hd'; simp [hd] at hd'

/-- **C22**, Kronecker property: evaluated at the reference nodes, the basis functions are one at
their own node and zero at the others. -/
theorem C22_kronecker {dim : Nat} {order order' : List Nat} (hs : IsSchedule order dim)
    (hs' : IsSchedule order' (dim + 1)) {coords values : V2 K} (h0 : coords.d0 = dim + 1)
    (h1 : coords.d1 = dim) (hv0 : values.d0 = dim + 1) (hv1 : values.d1 = dim + 1) :
    ∃ c v, getRefCoords order coords = .ok c ∧ getBasisValues order' c values = .ok v ∧
      ∀ b pt, b ≤ dim → pt ≤ dim → v.e b pt = if b = pt then 1 else 0 := by
  have hc := refCoords_ok hs h0 h1
  obtain ⟨v, h, -, -, h2⟩ := basisValues_ok hs'
    (ref := ⟨dim + 1, dim, fun r c => if r = c ∧ r < dim then 1 else 0⟩) rfl hv0 hv1
  refine ⟨_, v, hc, h, fun b pt hb hpt => ?_⟩
  obtain ⟨e1, e2⟩ := h2 pt (by omega)
  simp only at e1 e2
  by_cases hbd : b < dim
  · rw [e1 b hbd]
    by_cases hbp : b = pt
    · subst hbp; simp [hbd]
    · simp [hbp, Ne.symm hbp]
  · obtain rfl : b = dim := by omega
    rw [e2]
    by_cases hp : pt < b
    · rw [Finset.sum_eq_single pt]
      · simp [hp, show b ≠ pt by omega]
      · intro q _ hq; simp [Ne.symm hq]
      · intro hq; simp [hp] at hq
    · obtain rfl : pt = b := by omega
      rw [Finset.sum_eq_zero]
      · simp
      · intro q _; simp

/-- What `getBasisGradients` stores. -/
theorem basisGradients_ok {np dim : Nat} {order : List Nat} (hs : IsSchedule order np) {g : V3 K}
    (h0 : g.d0 = dim + 1) (h1 : g.d1 = np) (h2 : g.d2 = dim) :
    ∃ g', getBasisGradients order dim g = .ok g' ∧ g'.d0 = dim + 1 ∧ g'.d1 = np ∧ g'.d2 = dim ∧
      ∀ pt b d, pt < np → b ≤ dim → d < dim →
        g'.e b pt d = if b < dim then (if b = d then 1 else 0) else -1 := by
  obtain ⟨v, hv, ⟨h1, h2, h3, hinv⟩, h4⟩ := parFor_posts hs
    (s := (⟨g.d0, g.d1, g.d2, fun _ _ _ => 0⟩ : V3 K)) (body := fun pt g => do
      let g ← forRange 0 dim g fun b g => vwr3 g b pt b (1 : K)
      forRange 0 dim g fun d g => vwr3 g dim pt d (-1))
    (fun v => v.d0 = dim + 1 ∧ v.d1 = np ∧ v.d2 = dim ∧
      ∀ b pt d, b < dim → b ≠ d → v.e b pt d = 0)
    (fun pt v => (∀ b, b < dim → v.e b pt b = 1) ∧ ∀ d, d < dim → v.e dim pt d = -1)
    ⟨h0, h1, h2, by simp⟩ (by
      rintro pt z hpt ⟨hz0, hz1, hz2, hz3⟩
      have l1 := forRange_eq (n := dim) (body := fun b g => vwr3 g b pt b (1 : K))
        (fun k => (⟨z.d0, z.d1, z.d2, fun r c q => if r = q ∧ c = pt ∧ r < k then 1 else z.e r c q⟩ :
          V3 K)) (by
        intro k hk
        rw [vwr3, if_pos ⟨by simp only; omega, by simp only; omega, by simp only; omega⟩]
        congr 2
        funext r c q
        by_cases h : r = k ∧ c = pt ∧ q = k
        · obtain ⟨rfl, rfl, rfl⟩ := h; simp
        · by_cases h' : r = q ∧ c = pt
          · obtain ⟨rfl, rfl⟩ := h'
            have hrk : r ≠ k := fun hh => h ⟨hh, rfl, hh⟩
            have : r < k + 1 ↔ r < k := by omega
            simp [hrk, this]
          · have n1 : ¬ (r = q ∧ c = pt ∧ r < k) := fun hh => h' ⟨hh.1, hh.2.1⟩
            have n2 : ¬ (r = q ∧ c = pt ∧ r < k + 1) := fun hh => h' ⟨hh.1, hh.2.1⟩
            simp only [h, n1, n2, if_false])
      simp only [Nat.not_lt_zero, and_false, if_false] at l1
      rw [show (⟨z.d0, z.d1, z.d2, fun r c q => z.e r c q⟩ : V3 K) = z from rfl] at l1
      rw [l1, Res.ok_bind]
      generalize hy : (fun r c q => if r = q ∧ c = pt ∧ r < dim then (1 : K) else z.e r c q) = y
      have l2 := forRange_eq (n := dim) (body := fun d g => vwr3 g dim pt d (-1 : K))
        (fun k => (⟨z.d0, z.d1, z.d2, fun r c q => if r = dim ∧ c = pt ∧ q < k then -1 else y r c q⟩ :
          V3 K)) (by
        intro k hk
        rw [vwr3, if_pos ⟨by simp only; omega, by simp only; omega, by simp only; omega⟩]
        congr 2
        funext r c q
        by_cases h : r = dim ∧ c = pt
        · obtain ⟨rfl, rfl⟩ := h
          by_cases hq : q = k
          · subst hq; simp
          · have : q < k + 1 ↔ q < k := by omega
            simp [hq, this]
        · have n1 : ¬ (r = dim ∧ c = pt ∧ q < k) := fun hh => h ⟨hh.1, hh.2.1⟩
          have n2 : ¬ (r = dim ∧ c = pt ∧ q < k + 1) := fun hh => h ⟨hh.1, hh.2.1⟩
          have n3 : ¬ (r = dim ∧ c = pt ∧ q = k) := fun hh => h ⟨hh.1, hh.2.1⟩
          simp only [n1, n2, n3, if_false])
      simp only [Nat.not_lt_zero, and_false, if_false] at l2
      rw [l2, Res.sat_ok]
      subst hy
      refine ⟨⟨hz0, hz1, hz2, ?_⟩, ⟨?_, ?_⟩, ?_⟩
      · intro b p d hb hbd
        simp [show b ≠ dim by omega, hbd, hz3 b p d hb hbd]
      · intro b hb
        simp [show b ≠ dim by omega, hb]
      · intro d hd
        simp [hd]
      · rintro q - hq ⟨e1, e2⟩
        exact ⟨fun b hb => by simp [hq, e1 b hb], fun d hd => by simp [hq, e2 d hd]⟩)
  refine ⟨v, hv, h1, h2, h3, fun pt b d hpt hb hd => ?_⟩
  obtain ⟨e1, e2⟩ := h4 pt hpt
  by_cases hbd : b < dim
  · by_cases h : b = d
    · subst h; simp [hbd, e1 b hbd]
    · simp only [hbd, h, if_true, if_false]
      exact hinv b pt d hbd h
  · obtain rfl : b = dim := by omega
    simp [e2 d hd]

/-- **C22**, gradients: they add up to zero, and the basis values at any two points differ exactly by
the gradient applied to the difference of the points (so the gradient is the derivative). -/
theorem C22_gradient {np : Nat} {order order' : List Nat} (hs : IsSchedule order np)
    (hs' : IsSchedule order' np) {ref values : V2 K} {g : V3 K} (hr : ref.d0 = np)
    (hv0 : values.d0 = ref.d1 + 1) (hv1 : values.d1 = np) (h0 : g.d0 = ref.d1 + 1) (h1 : g.d1 = np)
    (h2 : g.d2 = ref.d1) :
    ∃ v g', getBasisValues order ref values = .ok v ∧ getBasisGradients order' ref.d1 g = .ok g' ∧
      (∀ pt d, pt < np → d < ref.d1 → ∑ b ∈ range (ref.d1 + 1), g'.e b pt d = 0) ∧
      ∀ b p q pt, b ≤ ref.d1 → p < np → q < np → pt < np →
        v.e b p - v.e b q = ∑ d ∈ range ref.d1, g'.e b pt d * (ref.e p d - ref.e q d) := by
  obtain ⟨v, hv, -, -, e1⟩ := basisValues_ok hs hr hv0 hv1
  obtain ⟨g', hg, -, -, -, e2⟩ := basisGradients_ok hs' h0 h1 h2
  refine ⟨v, g', hv, hg, fun pt d hpt hd => ?_, fun b p q pt hb hp hq hpt => ?_⟩
  · rw [Finset.sum_range_succ, e2 pt _ d hpt le_rfl hd, Finset.sum_eq_single d]
    · rw [e2 pt d d hpt hd.le hd]; simp [hd]
    · intro b hb hbd
      rw [Finset.mem_range] at hb
      rw [e2 pt b d hpt hb.le hd]; simp [hb, hbd]
    · intro h; simp [hd] at h
  · by_cases hbd : b < ref.d1
    · rw [(e1 p hp).1 b hbd, (e1 q hq).1 b hbd, Finset.sum_eq_single b]
      · rw [e2 pt b b hpt hb hbd]; simp [hbd]
      · intro d hd hdb
        rw [Finset.mem_range] at hd
        rw [e2 pt b d hpt hb hd]; simp [hbd, Ne.symm hdb]
      · intro h; simp [hbd] at h
    · obtain rfl : b = ref.d1 := by omega
      rw [(e1 p hp).2, (e1 q hq).2]
      have : ∀ d ∈ range ref.d1, g'.e ref.d1 pt d * (ref.e p d - ref.e q d) =
          ref.e q d - ref.e p d := by
        intro d hd
        rw [Finset.mem_range] at hd
        rw [e2 pt _ d hpt le_rfl hd]; simp
      rw [Finset.sum_congr rfl this, Finset.sum_sub_distrib]
      ring

/-- The hypotheses are met: two points in the plane. -/
example : IsSchedule [1, 0] 2 ∧ (⟨2, 2, fun i j => i + j⟩ : V2 ℚ).d0 = 2 :=
  ⟨List.Perm.swap 0 1 [], rfl⟩

end Plato
