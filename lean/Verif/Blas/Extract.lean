import Verif.Blas.Matrix
import Mathlib.Tactic.Ring

/-!
# Extraction of components from states stored row by row (C41)
-/

namespace Plato

variable {K : Type}

namespace blas2
variable [Field K]

/-- **C41** `extract` (two dimensional): component `offset` of every group of `stride` entries, for
every row and every schedule. -/
theorem C41_extract2 {orders : Nat → List Nat} {stride offset : Nat} {x y : V2 K}
    (hs : ∀ i, i < x.d0 → IsSchedule (orders i) y.d1) (hr : x.d0 ≤ y.d0)
    (hc : ∀ j, j < y.d1 → j * stride + offset < x.d1) :
    extract orders stride offset x y = Res.ok ⟨y.d0, y.d1, fun r c =>
      if r < x.d0 ∧ c < y.d1 then x.e r (c * stride + offset) else y.e r c⟩ := by
  unfold extract
  have h := forRange_eq (n := x.d0) (body := fun i y => parFor (orders i) y fun j y => do
      let a ← vrd2 x i (j * stride + offset)
      vwr2 y i j a) (fun k => (⟨y.d0, y.d1, fun r c =>
        if r < k ∧ c < y.d1 then x.e r (c * stride + offset) else y.e r c⟩ : V2 K)) (by
    intro k hk
    set z : V2 K := ⟨y.d0, y.d1, fun r c =>
        if r < k ∧ c < y.d1 then x.e r (c * stride + offset) else y.e r c⟩ with hz
    obtain ⟨s, h1, h2⟩ := parFor_sched (hs k hk) (s := z) (body := fun j y => do
      let a ← vrd2 x k (j * stride + offset)
      vwr2 y k j a) (fun D s => s = z.row k fun c =>
        if c ∈ D then x.e k (c * stride + offset) else z.e k c) (by
          simpa using (V2.row_self z k).symm) (by
      rintro D i s hi hD - rfl
      rw [vrd2_ok hk (hc i hi)]
      simp only [Res.ok_bind]
      rw [vwr2_row (by simp [hz]; omega) (by simpa [hz] using hi), Res.sat_ok]
      congr 1
      funext c
      by_cases h : c = i
      · subst h; simp
      · simp [h])
    rw [h1, h2]
    simp only [V2.row, hz]
    congr 2
    funext r c
    by_cases hrk : r = k
    · subst hrk
      by_cases hcc : c < y.d1 <;> simp [hcc]
    · have : r < k + 1 ↔ r < k := by omega
      simp [hrk, this])
  simpa using h

/-- **C41** `extract` with several components: the first `dim` components from `offset` on of every
group of `stride` entries. -/
theorem C41_extractDims {orders : Nat → List Nat} {stride dim offset n : Nat} {x y : V2 K}
    (hs : ∀ i, i < x.d0 → IsSchedule (orders i) n) (hr : x.d0 ≤ y.d0) (hd : 0 < dim)
    (hy : n * dim ≤ y.d1) (hc : ∀ j d, j < n → d < dim → j * stride + d + offset < x.d1) :
    extractDims orders stride dim offset x y = Res.ok ⟨y.d0, y.d1, fun r c =>
      if r < x.d0 ∧ c < n * dim then x.e r (c / dim * stride + c % dim + offset) else y.e r c⟩ := by
  unfold extractDims
  have h := forRange_eq (n := x.d0) (body := fun i y => parFor (orders i) y fun j y =>
      forRange 0 dim y fun d y => do
        let a ← vrd2 x i (j * stride + d + offset)
        vwr2 y i (j * dim + d) a) (fun k => (⟨y.d0, y.d1, fun r c =>
        if r < k ∧ c < n * dim then x.e r (c / dim * stride + c % dim + offset)
        else y.e r c⟩ : V2 K)) (by
    intro k hk
    set z : V2 K := ⟨y.d0, y.d1, fun r c =>
        if r < k ∧ c < n * dim then x.e r (c / dim * stride + c % dim + offset)
        else y.e r c⟩ with hz
    obtain ⟨s, h1, h2⟩ := parFor_sched (hs k hk) (s := z) (body := fun j y =>
      forRange 0 dim y fun d y => do
        let a ← vrd2 x k (j * stride + d + offset)
        vwr2 y k (j * dim + d) a) (fun D s => s = z.row k fun c =>
        if c / dim ∈ D then x.e k (c / dim * stride + c % dim + offset) else z.e k c) (by
          simpa using (V2.row_self z k).symm) (by
      rintro D i s hi hD - rfl
      have h3 := forRange_eq (n := dim) (body := fun d y => do
          let a ← vrd2 x k (i * stride + d + offset)
          vwr2 y k (i * dim + d) a) (fun l => z.row k fun c =>
            if c / dim ∈ D ∨ (c / dim = i ∧ c % dim < l) then
              x.e k (c / dim * stride + c % dim + offset) else z.e k c) (by
        intro l hl
        rw [vrd2_ok hk (hc i l hi hl)]
        simp only [Res.ok_bind]
        have hb : i * dim + l < y.d1 := by
          have : (i + 1) * dim ≤ n * dim := Nat.mul_le_mul_right _ (by omega)
          rw [Nat.add_mul] at this
          omega
        rw [vwr2_row (by simp [hz]; omega) (by simpa [hz] using hb)]
        congr 2
        funext c
        by_cases h : c = i * dim + l
        · subst h
          have e1 : (i * dim + l) / dim = i := by
            rw [Nat.mul_comm, Nat.mul_add_div hd, Nat.div_eq_of_lt hl]; rfl
          have e2 : (i * dim + l) % dim = l := by
            rw [Nat.mul_comm, Nat.mul_add_mod, Nat.mod_eq_of_lt hl]
          simp [e1, e2]
        · have e : (c / dim = i ∧ c % dim < l + 1) ↔ (c / dim = i ∧ c % dim < l) := by
            constructor
            · rintro ⟨rfl, h'⟩
              refine ⟨rfl, ?_⟩
              have := Nat.div_add_mod' c dim
              rcases Nat.lt_or_eq_of_le (Nat.lt_succ_iff.mp h') with h'' | h''
              · exact h''
              · exact absurd (by rw [← h'', this]) h
            · rintro ⟨rfl, h'⟩
              exact ⟨rfl, by omega⟩
          simp only [h, if_false, e])
      have e0 : (z.row k fun c => if c / dim ∈ D ∨ (c / dim = i ∧ c % dim < 0) then
              x.e k (c / dim * stride + c % dim + offset) else z.e k c) =
          z.row k fun c => if c / dim ∈ D then
              x.e k (c / dim * stride + c % dim + offset) else z.e k c := by
        congr 1; funext c; simp
      rw [e0] at h3
      rw [h3, Res.sat_ok]
      congr 1
      funext c
      have := Nat.mod_lt c hd
      simp [this, or_comm])
    rw [h1, h2]
    simp only [V2.row, hz]
    congr 2
    funext r c
    have hdiv : c / dim < n ↔ c < n * dim := Nat.div_lt_iff_lt_mul hd
    by_cases hrk : r = k
    · subst hrk
      by_cases hcc : c < n * dim
      · simp [hcc, hdiv.mpr hcc]
      · simp [hcc, mt hdiv.mp hcc]
    · have : r < k + 1 ↔ r < k := by omega
      simp [hrk, this])
  simpa using h

/-- The hypotheses of `C41_extractDims` are satisfiable: two displacement components out of three
degrees of freedom per node, four nodes, two states. -/
example : ∃ (x y : V2 ℚ), x.d0 = 2 ∧ (∀ i, i < x.d0 → IsSchedule [3, 0, 2, 1] 4) ∧ x.d0 ≤ y.d0 ∧
    4 * 2 ≤ y.d1 ∧ ∀ j d, j < 4 → d < 2 → j * 3 + d + 0 < x.d1 :=
  ⟨⟨2, 12, fun i j => i + j⟩, ⟨2, 8, fun _ _ => 0⟩, rfl, fun _ _ => by unfold IsSchedule; decide,
    by decide, by decide, fun j d hj hd => by show j * 3 + d + 0 < 12; omega⟩

end blas2
end Plato
