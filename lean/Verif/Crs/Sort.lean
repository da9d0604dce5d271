import Mathlib.Logic.Equiv.Basic
import Mathlib.Data.List.Perm.Basic
import Mathlib.Data.List.Nodup
import Verif.Crs.SortModel
import Verif.Crs.Spec

/-!
# C03: `sortColumnEntries` sorts each row and keeps its entries
-/

namespace Plato
open Finset
variable {K : Type}

/-- The row map of `n` rows into arrays with `len` entries: ascending and in range. -/
structure RowMapOk (rowMap : List Nat) (n len : Nat) : Prop where
  length : rowMap.length = n + 1
  mono : ∀ i, i < n → atN rowMap i ≤ atN rowMap (i + 1)
  last : atN rowMap n ≤ len

theorem RowMapOk.le {rm : List Nat} {n len : Nat} (h : RowMapOk rm n len) :
    ∀ i j, i ≤ j → j ≤ n → atN rm i ≤ atN rm j := by
  intro i j hij hj
  induction j with
  | zero => have : i = 0 := by omega
            subst this; exact Nat.le_refl _
  | succ j ih =>
    by_cases hc : i = j + 1
    · subst hc; exact Nat.le_refl _
    · exact Nat.le_trans (ih (by omega) (by omega)) (h.mono j (by omega))

/-- The stored (column, value) pairs of positions `lo .. hi-1`. -/
def rowPairs [Zero K] (st : List Nat × List K) (lo hi : Nat) : List (Nat × K) :=
  (List.range' lo (hi - lo)).map fun k => (atN st.1 k, at0 st.2 k)

theorem map_swap_perm {α : Type*} (f : Nat → α) {lo n i j : Nat} (hi : lo ≤ i ∧ i < lo + n)
    (hj : lo ≤ j ∧ j < lo + n) :
    ((List.range' lo n).map fun k => f (Equiv.swap i j k)).Perm ((List.range' lo n).map f) := by
  have h1 : ((List.range' lo n).map fun k => f (Equiv.swap i j k))
      = ((List.range' lo n).map (Equiv.swap i j)).map f := by simp
  rw [h1]
  apply List.Perm.map
  rw [List.perm_ext_iff_of_nodup]
  · intro a
    simp only [List.mem_map, List.mem_range'_1]
    constructor
    · rintro ⟨k, hk, rfl⟩
      rcases Equiv.swap_apply_eq_iff.1 (rfl : Equiv.swap i j k = _) with h
      by_cases h1 : k = i
      · subst h1; simpa using hj
      · by_cases h2 : k = j
        · subst h2; simpa using hi
        · rwa [Equiv.swap_apply_of_ne_of_ne h1 h2]
    · intro ha
      refine ⟨Equiv.swap i j a, ?_, by simp⟩
      by_cases h1 : a = i
      · subst h1; simpa using hj
      · by_cases h2 : a = j
        · subst h2; simpa using hi
        · rwa [Equiv.swap_apply_of_ne_of_ne h1 h2]
  · exact List.Nodup.map (Equiv.injective _) List.nodup_range'
  · exact List.nodup_range'

/-- One conditional exchange of the double loop. -/
def sortStep [Zero K] (i j : Nat) (st : List Nat × List K) : Res (List Nat × List K) := do
  let ci ← rd st.1 i
  let cj ← rd st.1 j
  if ci < cj then do
    let c1 ← wr st.1 j ci
    let c2 ← wr c1 i cj
    let vj ← rd st.2 j
    let vi ← rd st.2 i
    let v1 ← wr st.2 j vi
    let v2 ← wr v1 i vj
    pure (c2, v2)
  else pure st

theorem sortStep_sat [Zero K] {i j : Nat} {st : List Nat × List K}
    (hi : i < st.1.length) (hj : j < st.1.length) (hi' : i < st.2.length) (hj' : j < st.2.length) :
    (sortStep i j st).Sat fun st' =>
      st'.1.length = st.1.length ∧ st'.2.length = st.2.length ∧
      ((¬ atN st.1 i < atN st.1 j ∧ st' = st) ∨
       (atN st.1 i < atN st.1 j ∧
        (∀ k, atN st'.1 k = atN st.1 (Equiv.swap i j k)) ∧
        (∀ k, at0 st'.2 k = at0 st.2 (Equiv.swap i j k)))) := by
  unfold sortStep
  rw [rd_at0 hi, rd_at0 hj]
  simp only [Res.ok_bind]
  by_cases hc : at0 st.1 i < at0 st.1 j
  · rw [if_pos hc, wr_eq hj]
    simp only [Res.ok_bind]
    rw [wr_eq (by simpa using hi), rd_at0 hj', rd_at0 hi']
    simp only [Res.ok_bind]
    rw [wr_eq hj']
    simp only [Res.ok_bind]
    rw [wr_eq (by simpa using hi')]
    simp only [Res.ok_bind, Res.pure_eq, Res.sat_ok]
    refine ⟨by simp, by simp, Or.inr ⟨hc, ?_, ?_⟩⟩
    · intro k
      rw [atN, at0_set (by simpa using hi), at0_set hj, Equiv.swap_apply_def]
      split_ifs <;> simp_all
    · intro k
      rw [at0_set (by simpa using hi'), at0_set hj', Equiv.swap_apply_def]
      split_ifs <;> simp_all
  · rw [if_neg hc]
    exact Res.Sat.ok ⟨rfl, rfl, Or.inl ⟨hc, rfl⟩⟩

/-- Facts kept by every step while one row is sorted. -/
def SortKeep [Zero K] (lo hi : Nat) (st0 st : List Nat × List K) : Prop :=
  st.1.length = st0.1.length ∧ st.2.length = st0.2.length ∧
  (rowPairs st lo hi).Perm (rowPairs st0 lo hi) ∧
  (∀ k, (k < lo ∨ hi ≤ k) → atN st.1 k = atN st0.1 k ∧ at0 st.2 k = at0 st0.2 k)

theorem SortKeep.refl [Zero K] (lo hi : Nat) (st : List Nat × List K) : SortKeep lo hi st st :=
  ⟨rfl, rfl, List.Perm.refl _, fun _ _ => ⟨rfl, rfl⟩⟩

theorem SortKeep.swap [Zero K] {lo hi : Nat} {st0 st st' : List Nat × List K}
    (h : SortKeep lo hi st0 st) {i j : Nat} (hi' : lo ≤ i ∧ i < hi) (hj : lo ≤ j ∧ j < hi)
    (hl1 : st'.1.length = st.1.length) (hl2 : st'.2.length = st.2.length)
    (hc : ∀ k, atN st'.1 k = atN st.1 (Equiv.swap i j k))
    (hv : ∀ k, at0 st'.2 k = at0 st.2 (Equiv.swap i j k)) : SortKeep lo hi st0 st' := by
  obtain ⟨h1, h2, h3, h4⟩ := h
  refine ⟨hl1.trans h1, hl2.trans h2, ?_, ?_⟩
  · refine List.Perm.trans ?_ h3
    have := map_swap_perm (fun k => (atN st.1 k, at0 st.2 k)) (lo := lo) (n := hi - lo)
      (i := i) (j := j) (by omega) (by omega)
    unfold rowPairs
    simp only [hc, hv]
    exact this
  · intro k hk
    rw [hc, hv, Equiv.swap_apply_of_ne_of_ne (by omega) (by omega)]
    exact h4 k hk

theorem sortRow_loop_sat [Zero K] {lo hi : Nat} (st0 : List Nat × List K) (hle : lo ≤ hi)
    (hl1 : hi ≤ st0.1.length) (hl2 : hi ≤ st0.2.length) :
    (forRange lo hi st0 fun i st => forRange lo hi st fun j st => sortStep i j st).Sat fun st =>
      SortKeep lo hi st0 st ∧
      (∀ p q, lo ≤ p → p ≤ q → q < hi → atN st.1 p ≤ atN st.1 q) := by
  refine (forRange_inv (fun i st => SortKeep lo hi st0 st ∧
    (∀ p q, lo ≤ p → p ≤ q → q < i → atN st.1 p ≤ atN st.1 q) ∧
    (lo < i → ∀ p, lo ≤ p → p < hi → atN st.1 p ≤ atN st.1 (i - 1))) hle ?_ ?_).mono ?_
  · refine ⟨SortKeep.refl _ _ _, ?_, ?_⟩
    · intro p q h1 h2 h3; omega
    · intro h; omega
  · rintro i st hi1 hi2 ⟨hk, hsort, hmax⟩
    refine (forRange_inv (fun j st => SortKeep lo hi st0 st ∧
      (∀ p q, lo ≤ p → p ≤ q → q < i → atN st.1 p ≤ atN st.1 q) ∧
      (∀ p, lo ≤ p → p < j → atN st.1 p ≤ atN st.1 i) ∧
      (lo < i → j < i → ∀ p, lo ≤ p → p < hi → atN st.1 p ≤ atN st.1 (i - 1)) ∧
      (lo < i → i ≤ j → ∀ p, lo ≤ p → p < hi → atN st.1 p ≤ atN st.1 i)) hle ?_ ?_).mono ?_
    · refine ⟨hk, hsort, ?_, fun h _ => hmax h, ?_⟩
      · intro p h1 h2; omega
      · intro h1 h2; omega
    · rintro j s hj1 hj2 ⟨hk, hs, h2, h3, h4⟩
      have hlen1 := hk.1
      have hlen2 := hk.2.1
      refine (sortStep_sat (by omega) (by omega) (by omega) (by omega)).mono ?_
      rintro s' ⟨hl1', hl2', hcase⟩
      rcases hcase with ⟨hnlt, rfl⟩ | ⟨hlt, hc, hv⟩
      · -- no exchange
        refine ⟨hk, hs, ?_, ?_, ?_⟩
        · intro p hp1 hp2
          by_cases hpj : p = j
          · subst hpj; omega
          · exact h2 p hp1 (by omega)
        · intro hlo hji; exact h3 hlo (by omega)
        · intro hlo hij p hp1 hp2
          by_cases hji : j < i
          · have hj' : j = i - 1 := by omega
            have := h3 hlo hji p hp1 hp2
            rw [← hj'] at this; omega
          · exact h4 hlo (by omega) p hp1 hp2
      · -- exchange
        have hne : i ≠ j := by rintro rfl; omega
        have hii : Equiv.swap i j i = j := Equiv.swap_apply_left _ _
        have hjj : Equiv.swap i j j = i := Equiv.swap_apply_right _ _
        have hoth : ∀ p, p ≠ i → p ≠ j → atN s'.1 p = atN s.1 p := by
          intro p h1 h2; rw [hc, Equiv.swap_apply_of_ne_of_ne h1 h2]
        have hci : atN s'.1 i = atN s.1 j := by rw [hc, hii]
        have hcj : atN s'.1 j = atN s.1 i := by rw [hc, hjj]
        refine ⟨hk.swap ⟨hi1, hi2⟩ ⟨hj1, hj2⟩ hl1' hl2' hc hv, ?_, ?_, ?_, ?_⟩
        · intro p q hp hpq hq
          by_cases hpj : p = j
          · by_cases hqj : q = j
            · subst hpj hqj; exact Nat.le_refl _
            · rw [hpj, hcj, hoth q (by omega) hqj]
              have := hs j q hj1 (by omega) hq
              omega
          · by_cases hqj : q = j
            · rw [hqj, hcj, hoth p (by omega) hpj]
              exact h2 p hp (by omega)
            · rw [hoth p (by omega) hpj, hoth q (by omega) hqj]
              exact hs p q hp hpq hq
        · intro p hp1 hp2
          rw [hci]
          by_cases hpj : p = j
          · rw [hpj, hcj]; omega
          · by_cases hpi : p = i
            · rw [hpi, hci]
            · rw [hoth p hpi hpj]
              have := h2 p hp1 (by omega); omega
        · intro hlo hji p hp1 hp2
          have h3' := h3 hlo (by omega)
          rw [hoth (i - 1) (by omega) (by omega)]
          by_cases hpj : p = j
          · rw [hpj, hcj]; exact h3' i (by omega) hi2
          · by_cases hpi : p = i
            · rw [hpi, hci]; exact h3' j hj1 hj2
            · rw [hoth p hpi hpj]; exact h3' p hp1 hp2
        · intro hlo hij p hp1 hp2
          by_cases hji : j < i
          · have hj' : j = i - 1 := by omega
            have h3' := h3 hlo hji
            rw [← hj'] at h3'
            rw [hci]
            by_cases hpj : p = j
            · rw [hpj, hcj]; exact h3' i (by omega) hi2
            · by_cases hpi : p = i
              · rw [hpi, hci]
              · rw [hoth p hpi hpj]; exact h3' p hp1 hp2
          · have := h4 hlo (by omega) j hj1 hj2; omega
    · rintro s ⟨hk, hs, h2, h3, h4⟩
      refine ⟨hk, ?_, ?_⟩
      · intro p q hp hpq hq
        by_cases hqi : q = i
        · rw [hqi]; exact h2 p hp (by omega)
        · exact hs p q hp hpq (by omega)
      · intro _ p hp1 hp2
        simpa using h2 p hp1 hp2
  · rintro st ⟨hk, hs, -⟩
    exact ⟨hk, hs⟩

theorem sortRow_sat [Zero K] {rm : List Nat} {n len : Nat} (h : RowMapOk rm n len)
    (st : List Nat × List K) (h1 : st.1.length = len) (h2 : st.2.length = len) {row : Nat}
    (hr : row < n) :
    (sortRow rm row st).Sat fun st' =>
      SortKeep (atN rm row) (atN rm (row + 1)) st st' ∧
      (∀ p q, atN rm row ≤ p → p ≤ q → q < atN rm (row + 1) → atN st'.1 p ≤ atN st'.1 q) := by
  unfold sortRow
  rw [rd_at0 (by rw [h.length]; omega), rd_at0 (by rw [h.length]; omega)]
  simp only [Res.ok_bind]
  have hl : atN rm (row + 1) ≤ len := Nat.le_trans (h.le _ _ (by omega) (Nat.le_refl _)) h.last
  exact sortRow_loop_sat st (h.mono row hr) (hl.trans h1.ge) (hl.trans h2.ge)

/-- The entries of the positions outside a segment do not enter the pairs of another row. -/
theorem rowPairs_congr [Zero K] {st st' : List Nat × List K} {lo hi : Nat}
    (h : ∀ k, lo ≤ k → k < hi → atN st'.1 k = atN st.1 k ∧ at0 st'.2 k = at0 st.2 k) :
    rowPairs st' lo hi = rowPairs st lo hi := by
  unfold rowPairs
  apply List.map_congr_left
  intro k hk
  rw [List.mem_range'_1] at hk
  obtain ⟨h1, h2⟩ := h k hk.1 (by omega)
  rw [h1, h2]

/-- C03.  For every row map, column list and value list with consistent extents, and every row
schedule, `sortColumnEntries` returns normally; every row has nondecreasing columns and holds
exactly the (column,value) pairs it held before; positions outside all rows are untouched. -/
theorem C03_sort [Zero K] {rm : List Nat} {n len : Nat} (h : RowMapOk rm n len)
    (st : List Nat × List K) (h1 : st.1.length = len) (h2 : st.2.length = len) {order : List Nat}
    (ho : IsSchedule order n) :
    (sortColumnEntries order rm st).Sat fun st' =>
      st'.1.length = len ∧ st'.2.length = len ∧
      ∀ row, row < n →
        ((rowPairs st' (atN rm row) (atN rm (row + 1))).map Prod.fst).Pairwise (· ≤ ·) ∧
        (rowPairs st' (atN rm row) (atN rm (row + 1))).Perm
          (rowPairs st (atN rm row) (atN rm (row + 1))) := by
  refine (parFor_sched ho (fun D st' => st'.1.length = len ∧ st'.2.length = len ∧
    (∀ row, row < n → row ∈ D →
      (∀ p q, atN rm row ≤ p → p ≤ q → q < atN rm (row + 1) → atN st'.1 p ≤ atN st'.1 q)) ∧
    (∀ row, row < n → (rowPairs st' (atN rm row) (atN rm (row + 1))).Perm
          (rowPairs st (atN rm row) (atN rm (row + 1))))) ?_ ?_).mono ?_
  · exact ⟨h1, h2, fun _ _ h => absurd h (by simp), fun _ _ => List.Perm.refl _⟩
  · rintro D i s hi hD hsub ⟨hl1, hl2, hsort, hperm⟩
    refine (sortRow_sat h s hl1 hl2 hi).mono ?_
    rintro s' ⟨⟨k1, k2, k3, k4⟩, hs'⟩
    have hdisj : ∀ row, row < n → row ≠ i → ∀ k, atN rm row ≤ k → k < atN rm (row + 1) →
        k < atN rm i ∨ atN rm (i + 1) ≤ k := by
      intro row hrow hne k hk1 hk2
      rcases Nat.lt_or_gt_of_ne hne with hlt | hgt
      · left; exact Nat.lt_of_lt_of_le hk2 (h.le _ _ (by omega) (by omega))
      · right; exact Nat.le_trans (h.le _ _ (by omega) (by omega)) hk1
    refine ⟨k1.trans hl1, k2.trans hl2, ?_, ?_⟩
    · intro row hrow hmem p q hp hpq hq
      by_cases hri : row = i
      · subst hri; exact hs' p q hp hpq hq
      · have hm : row ∈ D := by
          rcases Finset.mem_insert.1 hmem with h | h
          · exact absurd h hri
          · exact h
        rw [(k4 p (hdisj row hrow hri p hp (by omega))).1,
            (k4 q (hdisj row hrow hri q (by omega) hq)).1]
        exact hsort row hrow hm p q hp hpq hq
    · intro row hrow
      by_cases hri : row = i
      · subst hri; exact k3.trans (hperm row hrow)
      · rw [rowPairs_congr (st := s) fun k hk1 hk2 => k4 k (hdisj row hrow hri k hk1 hk2)]
        exact hperm row hrow
  · rintro s' ⟨hl1, hl2, hsort, hperm⟩
    refine ⟨hl1, hl2, ?_⟩
    intro row hrow
    refine ⟨?_, hperm row hrow⟩
    unfold rowPairs
    rw [List.map_map, List.pairwise_map]
    refine List.Pairwise.imp_of_mem ?_ (List.pairwise_lt_range' (s := atN rm row) (n := atN rm (row + 1) - atN rm row))
    intro a b ha hb hab
    rw [List.mem_range'_1] at ha hb
    exact hsort row hrow (mem_range.2 hrow) a b ha.1 (Nat.le_of_lt hab) (by omega)

/-- Dense entry of scalar CRS arrays. -/
def denseOf [AddCommMonoid K] (rm : List Nat) (st : List Nat × List K) (i j : Nat) : K :=
  ∑ k ∈ Ico (atN rm i) (atN rm (i + 1)), if atN st.1 k = j then at0 st.2 k else 0

theorem denseOf_eq_sum [AddCommMonoid K] (rm : List Nat) (st : List Nat × List K) (i j : Nat) :
    denseOf rm st i j =
      ((rowPairs st (atN rm i) (atN rm (i + 1))).map fun p => if p.1 = j then p.2 else 0).sum := by
  unfold denseOf rowPairs
  rw [List.map_map]
  rw [← List.sum_toFinset _ (List.nodup_range' (n := atN rm (i + 1) - atN rm i))]
  apply Finset.sum_congr
  · ext k; simp only [mem_Ico, List.mem_toFinset, List.mem_range'_1]; omega
  · intro k _; rfl

/-- C03, consequence: the dense matrix is unchanged by `sortColumnEntries`. -/
theorem C03_sort_dense [AddCommMonoid K] {rm : List Nat} {n len : Nat} (h : RowMapOk rm n len)
    (st : List Nat × List K) (h1 : st.1.length = len) (h2 : st.2.length = len) {order : List Nat}
    (ho : IsSchedule order n) :
    (sortColumnEntries order rm st).Sat fun st' =>
      ∀ i j, i < n → denseOf rm st' i j = denseOf rm st i j := by
  refine (C03_sort h st h1 h2 ho).mono ?_
  rintro st' ⟨-, -, hrow⟩ i j hi
  rw [denseOf_eq_sum, denseOf_eq_sum]
  exact ((hrow i hi).2.map _).sum_eq

/-- The hypotheses of C03 are met by a non-trivial instance, and the model runs. -/
theorem C03_example : RowMapOk [0, 3, 5] 2 5 where
  length := rfl
  mono := by decide
  last := by decide

example : sortColumnEntries [1, 0] [0, 3, 5] ([2, 0, 1, 7, 3], [10, 11, 12, 13, 14]) =
    Res.ok ([0, 1, 2, 3, 7], [11, 12, 10, 14, 13]) := by decide

end Plato
