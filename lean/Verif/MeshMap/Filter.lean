import Mathlib.Algebra.BigOperators.Field
import Mathlib.Algebra.Order.BigOperators.Group.Finset
import Mathlib.Analysis.SpecialFunctions.Sqrt
import Mathlib.Tactic.Linarith
import Verif.MeshMap.Adjoint

/-!
# The linear filter is a partition of unity (C17)
-/

namespace Plato

open Finset

/-! ## Specification -/

/-- Euclidean distance between two points of a view. -/
noncomputable def ptDist (P : Pts ℝ) (i j : Nat) : ℝ :=
  Real.sqrt ((at0 P.x i - at0 P.x j) ^ 2 + (at0 P.y i - at0 P.y j) ^ 2 +
    (at0 P.z i - at0 P.z j) ^ 2)

/-- What the sphere query answers: `indices[offset r .. offset (r+1)]` are nodes within the radius
of node `r`, and `r` is one of them. -/
structure Query (n : Nat) (radius : ℝ) (P : Pts ℝ) (indices offset : List Nat) : Prop where
  len_x : P.x.length = n
  len_y : P.y.length = n
  len_z : P.z.length = n
  off_len : offset.length = n + 1
  off_zero : atN offset 0 = 0
  off_mono : ∀ r, r < n → atN offset r ≤ atN offset (r + 1)
  off_last : atN offset n = indices.length
  idx_lt : ∀ k, k < indices.length → atN indices k < n
  within : ∀ r k, r < n → atN offset r ≤ k → k < atN offset (r + 1) →
    ptDist P r (atN indices k) ≤ radius
  self : ∀ r, r < n → ∃ k, atN offset r ≤ k ∧ k < atN offset (r + 1) ∧ atN indices k = r

namespace Query

variable {n : Nat} {radius : ℝ} {P : Pts ℝ} {indices offset : List Nat}
  (q : Query n radius P indices offset)
include q

theorem mono {i j : Nat} (hij : i ≤ j) (hj : j ≤ n) : atN offset i ≤ atN offset j := by
  induction j with
  | zero => rw [Nat.le_zero.1 hij]
  | succ j ih =>
    rcases Nat.lt_or_ge i (j + 1) with h1 | h1
    · exact (ih (by omega) (by omega)).trans (q.off_mono j (by omega))
    · rw [Nat.le_antisymm hij h1]

theorem row_le {r : Nat} (hr : r < n) : atN offset (r + 1) ≤ indices.length := by
  rw [← q.off_last]; exact q.mono (by omega) (Nat.le_refl n)

theorem sum_diff (c : Nat) (hc : c ≤ n) :
    ∑ i ∈ range c, (atN offset (i + 1) - atN offset i) = atN offset c := by
  induction c with
  | zero => simp [q.off_zero]
  | succ c ih =>
    rw [sum_range_succ, ih (by omega)]
    have := q.off_mono c (by omega)
    omega

end Query

/-! ## Kernels -/

variable {n : Nat} {radius : ℝ} {P : Pts ℝ} {indices offset : List Nat}

theorem filterWeight_eq (hx : P.x.length = n) (hy : P.y.length = n) (hz : P.z.length = n) {r v : Nat}
    (hv : v < n) : filterWeight Real.sqrt radius P (at0 P.x r) (at0 P.y r) (at0 P.z r) v =
      Res.ok (radius - ptDist P r v) := by
  unfold filterWeight
  rw [rd_at0 (by omega), Res.ok_bind, rd_at0 (by omega), Res.ok_bind, rd_at0 (by omega), Res.ok_bind]
  show Res.ok _ = _
  congr 2
  unfold ptDist
  simp only [pow_two]
  split_ifs with h
  · rfl
  · rw [Real.sqrt_eq_zero_of_nonpos (not_lt.1 h)]

/-- Sum of the weights of the first entries of a row. -/
noncomputable def wsum (radius : ℝ) (P : Pts ℝ) (indices : List Nat) (r lo k : Nat) : ℝ :=
  ∑ e ∈ Ico lo k, (radius - ptDist P r (atN indices e))

theorem filterRow_sat (q : Query n radius P indices offset) {rowMap : List Nat}
    (hrl : rowMap.length = n + 1) (hr' : ∀ c, c < n + 1 → atN rowMap c = atN offset c) {r : Nat}
    (hr : r < n) {s : ColEnt ℝ} (hc : s.1.length = indices.length) (he : s.2.length = indices.length) :
    (filterRow Real.sqrt radius P indices offset rowMap r s).Sat fun s' =>
      s'.1.length = indices.length ∧ s'.2.length = indices.length ∧
      (∀ k, atN s'.1 k = if atN offset r ≤ k ∧ k < atN offset (r + 1) then atN indices k
        else atN s.1 k) ∧
      (∀ k, at0 s'.2 k = if atN offset r ≤ k ∧ k < atN offset (r + 1) then
        (radius - ptDist P r (atN indices k)) /
          wsum radius P indices r (atN offset r) (atN offset (r + 1)) else at0 s.2 k) := by
  have ol := q.off_len
  have h1 := q.off_mono r hr
  have h2 := q.row_le hr
  have hx := q.len_x
  have hy := q.len_y
  have hz := q.len_z
  unfold filterRow
  rw [rd_atN (by omega), Res.ok_bind, rd_at0 (by omega), Res.ok_bind, rd_at0 (by omega), Res.ok_bind,
    rd_at0 (by omega), Res.ok_bind, rd_atN (by omega), Res.ok_bind, rd_atN (by omega), Res.ok_bind,
    hr' r (by omega)]
  refine (forRange_inv (fun k (st : Nat × ℝ × ColEnt ℝ) => st.1 = k ∧
      st.2.1 = wsum radius P indices r (atN offset r) k ∧
      st.2.2.1.length = indices.length ∧ st.2.2.2.length = indices.length ∧
      (∀ e, atN st.2.2.1 e = if atN offset r ≤ e ∧ e < k then atN indices e else atN s.1 e) ∧
      (∀ e, at0 st.2.2.2 e = if atN offset r ≤ e ∧ e < k then
        radius - ptDist P r (atN indices e) else at0 s.2 e)) h1 ?_ ?_).bind ?_
  · refine ⟨rfl, by simp [wsum], hc, he, ?_, ?_⟩
    · intro e; rw [if_neg (by omega)]
    · intro e; rw [if_neg (by omega)]
  · rintro k ⟨i, t, cs, es⟩ hk1 hk2 ⟨hi, ht, hcl, hel, hcs, hes⟩
    simp only at hi ht hcl hel hcs hes ⊢
    subst hi
    rw [rd_atN (by omega), Res.ok_bind, wr_eq (by omega), Res.ok_bind,
      filterWeight_eq hx hy hz (q.idx_lt i (by omega)), Res.ok_bind, wr_eq (by omega), Res.ok_bind]
    refine Res.Sat.ok ⟨rfl, ?_, by simpa using hcl, by simpa using hel, ?_, ?_⟩
    · show t + _ = _
      rw [ht]; unfold wsum; rw [sum_Ico_succ_top hk1]
    · intro e
      show atN (cs.set i _) e = _
      rw [atN_set (by omega), hcs]
      by_cases hei : e = i
      · subst hei; rw [if_pos rfl, if_pos (by omega)]
      · rw [if_neg hei]
        by_cases h : atN offset r ≤ e ∧ e < i
        · rw [if_pos h, if_pos (by omega)]
        · rw [if_neg h, if_neg (by omega)]
    · intro e
      show at0 (es.set i _) e = _
      rw [at0_set (by omega), hes]
      by_cases hei : e = i
      · subst hei; rw [if_pos rfl, if_pos (by omega)]
      · rw [if_neg hei]
        by_cases h : atN offset r ≤ e ∧ e < i
        · rw [if_pos h, if_pos (by omega)]
        · rw [if_neg h, if_neg (by omega)]
  rintro ⟨i, t, cs, es⟩ ⟨hi, ht, hcl, hel, hcs, hes⟩
  simp only at hi ht hcl hel hcs hes ⊢
  refine (forRange_inv (fun k (st : Nat × ColEnt ℝ) => st.1 = k ∧ st.2.1 = cs ∧
      st.2.2.length = indices.length ∧
      (∀ e, at0 st.2.2 e = if atN offset r ≤ e ∧ e < k then at0 es e / t else at0 es e))
      h1 ?_ ?_).bind ?_
  · refine ⟨rfl, rfl, hel, ?_⟩
    intro e; rw [if_neg (by omega)]
  · rintro k ⟨i, cs', es'⟩ hk1 hk2 ⟨hi, hcs', hel', hes'⟩
    simp only at hi hcs' hel' hes' ⊢
    subst hi
    rw [rd_at0 (by omega), Res.ok_bind, wr_eq (by omega), Res.ok_bind]
    refine Res.Sat.ok ⟨rfl, hcs', by simpa using hel', ?_⟩
    intro e
    show at0 (es'.set i _) e = _
    rw [at0_set (by omega), hes', hes']
    by_cases hei : e = i
    · subst hei; rw [if_pos rfl, if_neg (by omega), if_pos (by omega)]
    · rw [if_neg hei]
      by_cases h : atN offset r ≤ e ∧ e < i
      · rw [if_pos h, if_pos (by omega)]
      · rw [if_neg h, if_neg (by omega)]
  rintro ⟨i', cs', es'⟩ ⟨-, hcs', hel', hes'⟩
  simp only at hcs' hel' hes' ⊢
  subst hcs'
  refine Res.Sat.ok ⟨hcl, hel', hcs, ?_⟩
  intro k
  show at0 es' k = _
  rw [hes', hes, ht]
  by_cases h : atN offset r ≤ k ∧ k < atN offset (r + 1)
  · rw [if_pos h, if_pos h, if_pos h]
  · rw [if_neg h, if_neg h, if_neg h]

theorem linearFilter_sat (q : Query n radius P indices offset) {o1 o2 : List Nat}
    (ho1 : IsSchedule o1 n) (ho2 : IsSchedule o2 n) :
    (linearFilter Real.sqrt o1 o2 radius P indices offset).Sat fun F => F.WF n ∧
      (∀ c, c ≤ n → atN F.rowMap c = atN offset c) ∧ F.cols.length = indices.length ∧
      (∀ k, k < indices.length → atN F.cols k = atN indices k) ∧
      ∀ r k, r < n → F.InRow k r → at0 F.ents k = (radius - ptDist P r (atN indices k)) /
        wsum radius P indices r (atN offset r) (atN offset (r + 1)) := by
  have ol := q.off_len
  unfold linearFilter
  rw [q.len_x]
  refine (parFor_posts ho1 (fun rm : List Nat => rm.length = n + 1 ∧ atN rm n = 0)
    (fun r rm => atN rm r = atN offset (r + 1) - atN offset r) ⟨by simp, ?_⟩ ?_).bind ?_
  · show at0 _ n = 0
    rw [at0_eq (by simp)]; simp
  · rintro r rm hr ⟨hl, h0⟩
    unfold filterCount
    rw [rd_atN (by omega), Res.ok_bind, rd_atN (by omega), Res.ok_bind, wr_eq (by omega)]
    refine Res.Sat.ok ⟨⟨by simpa using hl, ?_⟩, ?_, ?_⟩
    · rw [atN_set (by omega), if_neg (by omega), h0]
    · rw [atN_set (by omega), if_pos rfl]
    · intro j hj hjr h
      rw [atN_set (by omega), if_neg hjr, h]
  rintro rm ⟨⟨hl, h0⟩, hrm⟩
  refine (scan_sat n rm hl).bind ?_
  rintro ⟨rowMap, tot⟩ ⟨hrl, hr, ht⟩
  have hsum : ∀ c, c ≤ n → ∑ i ∈ range c, atN rm i = atN offset c := by
    intro c hc
    rw [← q.sum_diff c hc]
    exact sum_congr rfl fun i hi => hrm i (by have := mem_range.1 hi; omega)
  have hr' : ∀ c, c < n + 1 → atN rowMap c = atN offset c := fun c hc => by
    rw [hr c hc, hsum c (by omega)]
  have ht' : tot = indices.length := by
    have : tot = _ := ht
    rw [this, sum_range_succ, hsum n (Nat.le_refl n), h0, q.off_last]
    rfl
  subst ht'
  refine (parFor_posts ho2
    (fun s : ColEnt ℝ => s.1.length = indices.length ∧ s.2.length = indices.length)
    (fun r s => ∀ k, atN offset r ≤ k → k < atN offset (r + 1) → atN s.1 k = atN indices k ∧
      at0 s.2 k = (radius - ptDist P r (atN indices k)) /
        wsum radius P indices r (atN offset r) (atN offset (r + 1)))
    ⟨by simp, by simp⟩ ?_).bind ?_
  · rintro r s hrn ⟨h1, h2⟩
    refine (filterRow_sat q hrl hr' hrn h1 h2).mono ?_
    rintro s' ⟨g1, g2, g3, g4⟩
    refine ⟨⟨g1, g2⟩, ?_, ?_⟩
    · intro k hk1 hk2
      rw [g3, g4, if_pos ⟨hk1, hk2⟩, if_pos ⟨hk1, hk2⟩]
      exact ⟨rfl, rfl⟩
    · intro j hj hjr h k hk1 hk2
      have hn : ¬ (atN offset r ≤ k ∧ k < atN offset (r + 1)) := by
        rintro ⟨a, b⟩
        rcases Nat.lt_or_gt_of_ne hjr with hlt | hlt
        · have := q.mono (i := j + 1) (j := r) hlt (by omega); omega
        · have := q.mono (i := r + 1) (j := j) hlt (by omega); omega
      rw [g3, g4, if_neg hn, if_neg hn]
      exact h k hk1 hk2
  rintro ⟨cs, es⟩ ⟨⟨h1, h2⟩, hk⟩
  simp only at h1 h2 hk
  have hcols : ∀ k, k < indices.length → atN cs k = atN indices k := by
    intro k hkl
    obtain ⟨r, hr1, hr2, hr3⟩ := locate (atN offset) n k (by rw [q.off_zero]; omega)
      (by rw [q.off_last]; exact hkl)
    exact (hk r hr1 k hr2 hr3).1
  refine Res.Sat.ok ⟨⟨hrl, ?_, ?_, ?_, ?_, ?_, rfl, rfl⟩, ?_, h1, hcols, ?_⟩
  · rw [hr' 0 (by omega), q.off_zero]
  · intro i hi
    rw [hr' i (by omega), hr' (i + 1) (by omega)]
    exact q.off_mono i hi
  · rw [hr' n (by omega), q.off_last]; exact h1.symm
  · exact h2.trans h1.symm
  · intro k hkl
    have hkl : k < indices.length := by rw [← h1]; exact hkl
    show atN cs k < n
    rw [hcols k hkl]
    exact q.idx_lt k hkl
  · intro c hc; exact hr' c (by omega)
  · rintro r k hrn ⟨ha, hb⟩
    rw [hr' r (by omega)] at ha
    rw [hr' (r + 1) (by omega)] at hb
    exact (hk r hrn k ha hb).2

/-! ## Theorems -/

/-- Sum of the weights of a row is positive. -/
theorem wsum_pos (q : Query n radius P indices offset) (hR : 0 < radius) {r : Nat} (hr : r < n) :
    0 < wsum radius P indices r (atN offset r) (atN offset (r + 1)) := by
  obtain ⟨k, hk1, hk2, hk3⟩ := q.self r hr
  have h0 : ptDist P r r = 0 := by simp [ptDist]
  have hnn : ∀ e ∈ Ico (atN offset r) (atN offset (r + 1)),
      0 ≤ radius - ptDist P r (atN indices e) := by
    intro e he
    have := mem_Ico.1 he
    linarith [q.within r e hr this.1 this.2]
  unfold wsum
  refine lt_of_lt_of_le ?_ (single_le_sum hnn (mem_Ico.2 ⟨hk1, hk2⟩))
  rw [hk3, h0]
  linarith

/-- **C17**: for every set of nodes, every positive radius and every schedule, the filter matrix is
built, its rows hold the normalised linear weights, the entries are nonnegative and sum to one in
every row, and the filtered field reproduces constants and stays within the bounds of the field. -/
theorem C17_partition_of_unity (q : Query n radius P indices offset) (hR : 0 < radius)
    {o1 o2 : List Nat} (ho1 : IsSchedule o1 n) (ho2 : IsSchedule o2 n) :
    ∃ F, createFilter Real.sqrt o1 o2 "LINEAR" radius P indices offset = Res.ok (some F) ∧
      F.WF n ∧
      (∀ r k, r < n → F.InRow k r → 0 ≤ at0 F.ents k) ∧
      (∀ r, r < n → ∑ k ∈ Ico (atN F.rowMap r) (atN F.rowMap (r + 1)), at0 F.ents k = 1) ∧
      (∀ r k, r < n → F.InRow k r → at0 F.ents k =
        (radius - ptDist P r (atN F.cols k)) /
          ∑ e ∈ Ico (atN F.rowMap r) (atN F.rowMap (r + 1)), (radius - ptDist P r (atN F.cols e))) ∧
      ∀ (o : List Nat) (x out : List ℝ), IsSchedule o n → x.length = n → out.length = n →
        ∃ y, spMatvec o F x out = Res.ok y ∧ y.length = n ∧
          (∀ c, (∀ i, i < n → at0 x i = c) → ∀ i, i < n → at0 y i = c) ∧
          ∀ lo hi, (∀ i, i < n → lo ≤ at0 x i ∧ at0 x i ≤ hi) →
            ∀ i, i < n → lo ≤ at0 y i ∧ at0 y i ≤ hi := by
  obtain ⟨F, hF, hWF, hrm, hcl, hcols, hents⟩ := linearFilter_sat q ho1 ho2
  have hrow : ∀ r, r < n → wsum radius P indices r (atN offset r) (atN offset (r + 1)) =
      ∑ e ∈ Ico (atN F.rowMap r) (atN F.rowMap (r + 1)), (radius - ptDist P r (atN F.cols e)) := by
    intro r hr
    unfold wsum
    rw [hrm r (by omega), hrm (r + 1) (by omega)]
    refine sum_congr rfl fun e he => ?_
    rw [hcols e (by have := mem_Ico.1 he; have := q.row_le hr; omega)]
  have hpos : ∀ r k, r < n → F.InRow k r → 0 ≤ at0 F.ents k := by
    intro r k hr hk
    rw [hents r k hr hk]
    refine div_nonneg ?_ (wsum_pos q hR hr).le
    obtain ⟨a, b⟩ := hk
    rw [hrm r (by omega)] at a
    rw [hrm (r + 1) (by omega)] at b
    linarith [q.within r k hr a b]
  have hone : ∀ r, r < n →
      ∑ k ∈ Ico (atN F.rowMap r) (atN F.rowMap (r + 1)), at0 F.ents k = 1 := by
    intro r hr
    have e : ∀ k ∈ Ico (atN F.rowMap r) (atN F.rowMap (r + 1)), at0 F.ents k =
        (radius - ptDist P r (atN indices k)) /
          wsum radius P indices r (atN offset r) (atN offset (r + 1)) := fun k hk =>
      hents r k hr (mem_Ico.1 hk)
    rw [sum_congr rfl e, ← sum_div, hrm r (by omega), hrm (r + 1) (by omega)]
    exact div_self (wsum_pos q hR hr).ne'
  refine ⟨F, ?_, hWF, hpos, hone, ?_, ?_⟩
  · unfold createFilter
    rw [if_pos rfl, if_neg (not_le.2 hR), hF]
    rfl
  · intro r k hr hk
    have h2 := (hWF.row_le hr).2
    rw [hents r k hr hk, hrow r hr, hcols k (by have := hk.2; omega)]
  · intro o x out ho hx hout
    obtain ⟨y, hy, hyl, hy'⟩ := spMatvec_eq hWF hx hout ho
    have hval : ∀ i, i < n → at0 y i =
        ∑ k ∈ Ico (atN F.rowMap i) (atN F.rowMap (i + 1)), at0 F.ents k * at0 x (atN F.cols k) := by
      intro i hi
      rw [hy' i hi]
      unfold SpMat.mul SpMat.dense
      simp only [sum_mul]
      rw [sum_comm]
      refine sum_congr rfl fun k hk => ?_
      have := hWF.cols_lt k (by have := mem_Ico.1 hk; have := (hWF.row_le hi).2; omega)
      simp only [ite_mul, zero_mul]
      rw [sum_ite_eq (range n) (atN F.cols k) (fun j => at0 F.ents k * at0 x j),
        if_pos (mem_range.2 this)]
    have hlt : ∀ i k, i < n → k ∈ Ico (atN F.rowMap i) (atN F.rowMap (i + 1)) →
        atN F.cols k < n := fun i k hi hk =>
      hWF.cols_lt k (by have := mem_Ico.1 hk; have := (hWF.row_le hi).2; omega)
    refine ⟨y, hy, hyl, ?_, ?_⟩
    · intro c hc i hi
      rw [hval i hi, sum_congr rfl fun k hk => by rw [hc _ (hlt i k hi hk)], ← sum_mul, hone i hi,
        one_mul]
    · intro lo hi hb i hin
      rw [hval i hin]
      constructor
      · calc lo = ∑ k ∈ Ico (atN F.rowMap i) (atN F.rowMap (i + 1)), at0 F.ents k * lo := by
              rw [← sum_mul, hone i hin, one_mul]
          _ ≤ _ := sum_le_sum fun k hk => mul_le_mul_of_nonneg_left (hb _ (hlt i k hin hk)).1
              (hpos i k hin (mem_Ico.1 hk))
      · calc _ ≤ ∑ k ∈ Ico (atN F.rowMap i) (atN F.rowMap (i + 1)), at0 F.ents k * hi :=
              sum_le_sum fun k hk => mul_le_mul_of_nonneg_left (hb _ (hlt i k hin hk)).2
                (hpos i k hin (mem_Ico.1 hk))
          _ = hi := by rw [← sum_mul, hone i hin, one_mul]

/-- A radius that is not positive is rejected. -/
theorem C17_radius_rejected (o1 o2 : List Nat) (hR : radius ≤ 0) :
    createFilter Real.sqrt o1 o2 "LINEAR" radius P indices offset =
      Res.err "Filter 'Radius' must be greater than zero." := by
  unfold createFilter
  rw [if_pos rfl, if_pos hR]

/-- Two nodes at distance 1, radius 2: both see each other. -/
example : Query 2 2 ⟨[0, 1], [0, 0], [0, 0]⟩ [0, 1, 1, 0] [0, 2, 4] := by
  refine ⟨rfl, rfl, rfl, rfl, rfl, ?_, rfl, ?_, ?_, ?_⟩
  · intro r hr; interval_cases r <;> decide
  · intro k hk
    have : k < 4 := hk
    interval_cases k <;> decide
  · intro r k hr h1 h2
    have h4 : k < 4 := by
      interval_cases r
      · exact lt_trans h2 (by decide)
      · exact h2
    unfold ptDist
    interval_cases r <;> interval_cases k <;> norm_num [at0, atN, Real.sqrt_le_iff]
  · intro r hr
    interval_cases r
    · exact ⟨0, by decide⟩
    · exact ⟨2, by decide⟩

end Plato
