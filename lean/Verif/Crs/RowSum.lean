import Mathlib.Algebra.Field.Basic
import Mathlib.Tactic.FieldSimp
import Verif.Crs.Lemmas
import Verif.Crs.Props

/-!
# C04: row sums and the row-summed inverse product
-/

namespace Plato
open Finset
variable {K : Type}

/-- Sum of local row `r` of stored block `k`. -/
def blockRowSum [AddCommMonoid K] (A : Crs K) (k r : Nat) : K :=
  ∑ jj ∈ range A.cpb, at0 A.vals (A.rpb * A.cpb * k + A.cpb * r + jj)

theorem dense_rowSum_eq [CommSemiring K] {A : Crs K} {nb mb : Nat} (h : A.WF nb mb) {i : Nat}
    (hi : i < nb * A.rpb) :
    ∑ j ∈ range (mb * A.cpb), A.dense i j =
      ∑ k ∈ Ico (atN A.rowMap (i / A.rpb)) (atN A.rowMap (i / A.rpb + 1)),
        blockRowSum A k (i % A.rpb) := by
  have key := dense_mul_eq h (List.replicate (mb * A.cpb) (1 : K)) hi
  have hone : ∀ j, j < mb * A.cpb → at0 (List.replicate (mb * A.cpb) (1 : K)) j = 1 := by
    intro j hj; rw [at0_eq (by simpa using hj)]; simp
  have h1 : ∑ j ∈ range (mb * A.cpb), A.dense i j =
      ∑ j ∈ range (mb * A.cpb), A.dense i j * at0 (List.replicate (mb * A.cpb) (1 : K)) j := by
    apply sum_congr rfl
    intro j hj; rw [hone j (mem_range.1 hj), mul_one]
  rw [h1, key]
  have hi' : i / A.rpb < nb := Nat.div_lt_of_lt_mul (by rwa [Nat.mul_comm] at hi)
  apply sum_congr rfl
  intro k hk
  have hk' : k < A.cols.length := lt_of_lt_of_le (mem_Ico.1 hk).2 (h.rowEnd_le hi')
  unfold blockDot blockRowSum
  apply sum_congr rfl
  intro jj hjj
  rw [hone _ (block_lt (mem_range.1 hjj) (h.cols_lt k hk')), mul_one]

section
variable [Field K]

theorem rowSumRow_sat {A : Crs K} {nb mb : Nat} (h : A.WF nb mb) (sum : List K)
    (hs : sum.length = nb * A.rpb) {node : Nat} (hn : node < nb) :
    (rowSumRow A node sum).Sat fun sum' => sum'.length = sum.length ∧
      ∀ v, at0 sum' v = at0 sum v + if v / A.rpb = node then
        ∑ k ∈ Ico (atN A.rowMap node) (atN A.rowMap (node + 1)), blockRowSum A k (v % A.rpb)
        else 0 := by
  unfold rowSumRow
  rw [h.rd_start hn, h.rd_end hn]
  simp only [Res.ok_bind]
  refine forRange_inv (fun k s => s.length = sum.length ∧
      ∀ v, at0 s v = at0 sum v + if v / A.rpb = node then
        ∑ k ∈ Ico (atN A.rowMap node) k, blockRowSum A k (v % A.rpb) else 0)
    (h.rowMap_mono node hn) ⟨rfl, fun v => by simp⟩ ?_
  rintro k s1 hk1 hk2 ⟨hl1, hs1⟩
  have hk : k < A.cols.length := lt_of_lt_of_le hk2 (h.rowEnd_le hn)
  refine (forRange_inv (fun i s => s.length = sum.length ∧
      ∀ v, at0 s v = at0 s1 v + if v / A.rpb = node ∧ v % A.rpb < i then
        blockRowSum A k (v % A.rpb) else 0) (Nat.zero_le _) (by simp [hl1]) ?_).mono ?_
  · rintro i s2 - hi ⟨hl2, hs2⟩
    have hvec : node * A.rpb + i < sum.length := by
      rw [hs, Nat.mul_comm node]; exact block_lt hi hn
    have hd : (node * A.rpb + i) / A.rpb = node := by
      rw [Nat.mul_comm]; exact div_block hi
    have hm : (node * A.rpb + i) % A.rpb = i := by
      rw [Nat.mul_comm]; exact mod_block hi
    refine (forRange_inv (fun j s => s.length = sum.length ∧
      ∀ v, at0 s v = at0 s2 v + if v = node * A.rpb + i then
        ∑ jj ∈ range j, at0 A.vals (A.rpb * A.cpb * k + A.cpb * i + jj) else 0)
        (Nat.zero_le _) (by simp [hl2]) ?_).mono ?_
    · rintro j s3 - hj ⟨hl3, hs3⟩
      rw [rd_at0 (entry_lt h hk hi hj)]
      simp only [Res.ok_bind]
      rw [rd_at0 (by omega)]
      simp only [Res.ok_bind]
      rw [wr_eq (by omega)]
      simp only [Res.sat_ok]
      refine ⟨by simpa using hl3, ?_⟩
      intro v
      rw [at0_set (by omega)]
      split
      · next heq => subst heq; rw [hs3, if_pos rfl, sum_range_succ, add_assoc]
      · next hne => rw [hs3, if_neg hne]
    · rintro s3 ⟨hl3, hs3⟩
      refine ⟨hl3, ?_⟩
      intro v
      rw [hs3, hs2]
      by_cases hv : v = node * A.rpb + i
      · subst hv
        simp [hd, hm, blockRowSum]
      · rw [if_neg hv, add_zero]
        congr 1
        have : (v / A.rpb = node ∧ v % A.rpb < i) ↔ (v / A.rpb = node ∧ v % A.rpb < i + 1) := by
          constructor
          · rintro ⟨a, b⟩; exact ⟨a, by omega⟩
          · rintro ⟨a, b⟩
            refine ⟨a, ?_⟩
            have hne : v % A.rpb ≠ i := by
              intro hmi
              apply hv
              have := Nat.div_add_mod v A.rpb
              rw [a, hmi, Nat.mul_comm] at this; omega
            omega
        simp only [this]
  · rintro s2 ⟨hl2, hs2⟩
    refine ⟨hl2, ?_⟩
    intro v
    rw [hs2, hs1]
    have hlt : v % A.rpb < A.rpb := Nat.mod_lt _ h.rpb_pos
    by_cases hv : v / A.rpb = node
    · simp only [hv, hlt, and_self, if_true]
      rw [sum_Ico_succ_top hk1, add_assoc]
    · simp [hv]

theorem diagInvRow_sat {B : Crs K} {nb mb : Nat} (h : B.WF nb mb) (diag vals : List K)
    (hd : diag.length = nb * B.rpb) (hv : vals.length = B.vals.length) {node : Nat}
    (hn : node < nb) :
    (diagInvRow B node diag vals).Sat fun vals' => vals'.length = vals.length ∧
      ∀ e, at0 vals' e = if B.rpb * B.cpb * atN B.rowMap node ≤ e ∧
          e < B.rpb * B.cpb * atN B.rowMap (node + 1)
        then at0 vals e / at0 diag (node * B.rpb + e % (B.rpb * B.cpb) / B.cpb) else at0 vals e := by
  unfold diagInvRow
  rw [h.rd_start hn, h.rd_end hn]
  simp only [Res.ok_bind]
  have hrp := h.rpb_pos
  have hcp := h.cpb_pos
  have hm := h.rowMap_mono node hn
  set T := B.rpb * B.cpb with hT
  set R := atN B.rowMap node with hR
  refine forRange_inv (fun k s => s.length = vals.length ∧
      ∀ e, at0 s e = if T * R ≤ e ∧ e < T * k
        then at0 vals e / at0 diag (node * B.rpb + e % T / B.cpb) else at0 vals e)
    hm ?_ ?_
  · refine ⟨rfl, fun e => ?_⟩
    rw [if_neg (by omega)]
  · rintro k s1 hk1 hk2 ⟨hl1, hs1⟩
    have hk : k < B.cols.length := lt_of_lt_of_le hk2 (h.rowEnd_le hn)
    have hRk : T * R ≤ T * k := Nat.mul_le_mul_left _ hk1
    refine (forRange_inv (fun i s => s.length = vals.length ∧
      ∀ e, at0 s e = if T * R ≤ e ∧ e < T * k + B.cpb * i
        then at0 vals e / at0 diag (node * B.rpb + e % T / B.cpb) else at0 vals e)
        (Nat.zero_le _) ⟨hl1, by simpa using hs1⟩ ?_).mono ?_
    · rintro i s2 - hi ⟨hl2, hs2⟩
      have hvec : node * B.rpb + i < diag.length := by
        rw [hd, Nat.mul_comm node]; exact block_lt hi hn
      refine (forRange_inv (fun j s => s.length = vals.length ∧
        ∀ e, at0 s e = if T * R ≤ e ∧ e < T * k + B.cpb * i + j
          then at0 vals e / at0 diag (node * B.rpb + e % T / B.cpb) else at0 vals e)
          (Nat.zero_le _) ⟨hl2, by simpa using hs2⟩ ?_).mono ?_
      · rintro j s3 - hj ⟨hl3, hs3⟩
        have hlt : T * k + B.cpb * i + j < s3.length := by
          rw [hl3, hv]; exact entry_lt h hk hi hj
        have hlt' : B.cpb * i + j < T := block_lt hj hi
        rw [rd_at0 hlt]
        simp only [Res.ok_bind]
        rw [rd_at0 hvec]
        simp only [Res.ok_bind]
        rw [wr_eq hlt]
        simp only [Res.sat_ok]
        refine ⟨by simpa using hl3, ?_⟩
        intro e
        rw [at0_set hlt]
        split
        · next heq =>
          subst heq
          rw [if_pos (by omega), hs3, if_neg (by omega)]
          have e1 : (T * k + B.cpb * i + j) % T = B.cpb * i + j := by
            rw [Nat.add_assoc]; exact mod_block hlt'
          rw [e1, div_block hj]
        · next hne =>
          rw [hs3]
          by_cases hc : T * R ≤ e ∧ e < T * k + B.cpb * i + j
          · rw [if_pos hc, if_pos (by omega)]
          · rw [if_neg hc, if_neg (by omega)]
      · rintro s3 ⟨hl3, hs3⟩
        refine ⟨hl3, ?_⟩
        intro e
        rw [hs3]
        have : T * k + B.cpb * i + B.cpb = T * k + B.cpb * (i + 1) := by ring
        rw [this]
    · rintro s2 ⟨hl2, hs2⟩
      refine ⟨hl2, ?_⟩
      intro e
      rw [hs2]
      have : T * k + B.cpb * B.rpb = T * (k + 1) := by rw [hT]; ring
      rw [this]

/-- C04, first part.  `RowSummedInverseMultiply(A,B)` returns normally under every schedule,
keeps the pattern of `B`, and multiplying row `i` of the result by the row sum of `A` restores
row `i` of `B`, whenever the row sums are nonzero. -/
theorem C04_rowSummedInverseMultiply {A B : Crs K} {nb mb mb' : Nat} (hA : A.WF nb mb)
    (hB : B.WF nb mb') (hr : A.rpb = B.rpb) {order : List Nat} (ho : IsSchedule order nb)
    (hne : ∀ i, i < nb * A.rpb → ∑ j ∈ range (mb * A.cpb), A.dense i j ≠ 0) :
    (rowSummedInverseMultiply order A B).Sat fun B' =>
      B'.WF nb mb' ∧ B'.rowMap = B.rowMap ∧ B'.cols = B.cols ∧ B'.rpb = B.rpb ∧ B'.cpb = B.cpb ∧
      ∀ i j, i < nb * A.rpb →
        (∑ j ∈ range (mb * A.cpb), A.dense i j) * B'.dense i j = B.dense i j := by
  unfold rowSummedInverseMultiply
  simp only [Crs.numRows, hA.numRows_eq, Res.ok_bind]
  -- row sums as numbers
  set rs : Nat → K := fun v =>
    ∑ k ∈ Ico (atN A.rowMap (v / A.rpb)) (atN A.rowMap (v / A.rpb + 1)),
      blockRowSum A k (v % A.rpb) with hrs
  refine Res.Sat.bind (P := fun st : List K × List K => st.2.length = B.vals.length ∧
      ∀ node, node < nb → ∀ e, B.rpb * B.cpb * atN B.rowMap node ≤ e →
        e < B.rpb * B.cpb * atN B.rowMap (node + 1) →
        at0 st.2 e = at0 B.vals e / rs (node * B.rpb + e % (B.rpb * B.cpb) / B.cpb)) ?_ ?_
  · refine (parFor_sched ho (fun D (st : List K × List K) =>
      st.1.length = nb * A.rpb ∧ st.2.length = B.vals.length ∧
      (∀ v, v < nb * A.rpb → v / A.rpb ∉ D → at0 st.1 v = 0) ∧
      (∀ node, node < nb → ∀ e, B.rpb * B.cpb * atN B.rowMap node ≤ e →
        e < B.rpb * B.cpb * atN B.rowMap (node + 1) →
        at0 st.2 e = if node ∈ D then
          at0 B.vals e / rs (node * B.rpb + e % (B.rpb * B.cpb) / B.cpb) else at0 B.vals e))
      ?_ ?_).mono ?_
    · refine ⟨by simp, rfl, ?_, ?_⟩
      · intro v hv _
        rw [at0_eq (by simpa using hv)]; simp
      · intro node _ e _ _; simp
    · rintro D node ⟨s, vals⟩ hn hD - ⟨hl1, hl2, hz, hv⟩
      simp only at hl1 hl2 hz hv
      refine Res.Sat.bind (rowSumRow_sat hA s hl1 hn) ?_
      rintro s' ⟨hs'l, hs'⟩
      refine Res.Sat.bind (diagInvRow_sat hB s' vals (by rw [hs'l, hl1, hr]) hl2 hn) ?_
      rintro vals' ⟨hv'l, hv'⟩
      simp only [Res.pure_eq, Res.sat_ok]
      refine ⟨hs'l.trans hl1, hv'l.trans hl2, ?_, ?_⟩
      · intro v hvlt hnot
        rw [Finset.mem_insert, not_or] at hnot
        rw [hs', if_neg hnot.1, add_zero]
        exact hz v hvlt hnot.2
      · intro node' hn' e he1 he2
        have hcp := hB.cpb_pos
        have hrp := hB.rpb_pos
        have hT : 0 < B.rpb * B.cpb := Nat.mul_pos hrp hcp
        by_cases hc : node' = node
        · subst hc
          rw [hv', if_pos ⟨he1, he2⟩, if_pos (Finset.mem_insert_self _ _)]
          have hloc : e % (B.rpb * B.cpb) / B.cpb < B.rpb := by
            apply Nat.div_lt_of_lt_mul
            have := Nat.mod_lt e hT
            rwa [Nat.mul_comm B.rpb] at this ⊢
          have hvlt : node' * B.rpb + e % (B.rpb * B.cpb) / B.cpb < nb * A.rpb := by
            rw [hr, Nat.mul_comm node']; exact block_lt hloc hn
          have hdiv : (node' * B.rpb + e % (B.rpb * B.cpb) / B.cpb) / A.rpb = node' := by
            rw [hr, Nat.mul_comm node']; exact div_block hloc
          have h0 : at0 s (node' * B.rpb + e % (B.rpb * B.cpb) / B.cpb) = 0 := by
            apply hz _ hvlt; rw [hdiv]; exact hD
          have hvv := hv node' hn' e he1 he2
          rw [if_neg hD] at hvv
          rw [hvv, hs', h0, if_pos hdiv, zero_add]
          congr 1
          rw [hrs]; simp only [hdiv]
        · rw [hv', if_neg, hv node' hn' e he1 he2]
          · simp [Finset.mem_insert, hc]
          · rintro ⟨a, b⟩
            have hlt1 : B.rpb * B.cpb * atN B.rowMap node' < B.rpb * B.cpb * atN B.rowMap (node + 1) := by omega
            have hlt2 : B.rpb * B.cpb * atN B.rowMap node < B.rpb * B.cpb * atN B.rowMap (node' + 1) := by omega
            have h1 := Nat.lt_of_mul_lt_mul_left hlt1
            have h2 := Nat.lt_of_mul_lt_mul_left hlt2
            rcases Nat.lt_or_gt_of_ne hc with hlt | hgt
            · have := hB.rowMap_le_of_le (node' + 1) node (by omega) (by omega); omega
            · have := hB.rowMap_le_of_le (node + 1) node' (by omega) (by omega); omega
    · rintro ⟨s, vals⟩ ⟨-, hl, -, hv⟩
      refine ⟨hl, ?_⟩
      intro node hn e he1 he2
      rw [hv node hn e he1 he2, if_pos (mem_range.2 hn)]
  · rintro ⟨s, vals⟩ ⟨hl, hv⟩
    simp only at hl hv
    refine Res.Sat.ok ⟨⟨hB.rpb_pos, hB.cpb_pos, hB.rowMap_length, hB.rowMap_zero, hB.rowMap_mono,
      hB.rowMap_last, hB.cols_lt, by simpa [hl] using hB.vals_length, hB.numRows_eq, hB.numCols_eq⟩,
      rfl, rfl, rfl, rfl, ?_⟩
    intro i j hi
    have hsum := dense_rowSum_eq hA hi
    have hne' := hne i hi
    rw [hsum] at hne' ⊢
    unfold Crs.dense
    simp only
    rw [mul_sum]
    apply sum_congr rfl
    intro k hk
    have hi2 : i / B.rpb < nb := by
      rw [← hr]; exact Nat.div_lt_of_lt_mul (by rwa [Nat.mul_comm] at hi)
    split
    · have hjm : j % B.cpb < B.cpb := Nat.mod_lt _ hB.cpb_pos
      have him : i % B.rpb < B.rpb := Nat.mod_lt _ hB.rpb_pos
      have hin : B.cpb * (i % B.rpb) + j % B.cpb < B.rpb * B.cpb := block_lt hjm him
      have hk1 := (mem_Ico.1 hk).1
      have hk2 := (mem_Ico.1 hk).2
      have m1 : B.rpb * B.cpb * atN B.rowMap (i / B.rpb) ≤ B.rpb * B.cpb * k :=
        Nat.mul_le_mul_left _ hk1
      have m2 : B.rpb * B.cpb * (k + 1) ≤ B.rpb * B.cpb * atN B.rowMap (i / B.rpb + 1) :=
        Nat.mul_le_mul_left _ hk2
      rw [Nat.mul_add] at m2
      rw [hv (i / B.rpb) hi2 _ (by omega) (by omega)]
      have e1 : (B.rpb * B.cpb * k + B.cpb * (i % B.rpb) + j % B.cpb) % (B.rpb * B.cpb) =
          B.cpb * (i % B.rpb) + j % B.cpb := by
        rw [Nat.add_assoc]; exact mod_block hin
      rw [e1, div_block hjm]
      have e2 : i / B.rpb * B.rpb + i % B.rpb = i := by
        rw [Nat.mul_comm]; exact Nat.div_add_mod i B.rpb
      rw [e2]
      have : rs i = ∑ k ∈ Ico (atN A.rowMap (i / A.rpb)) (atN A.rowMap (i / A.rpb + 1)),
        blockRowSum A k (i % A.rpb) := rfl
      rw [this]
      field_simp
    · simp

/-- `InverseWeight`: `x(i) = b(i)/R(i)*scale` for the dofs of one node, nothing else changes. -/
theorem C04_inverseWeight (n : Nat) (scale : K) (rowSum rhs lhs : List K) {nb node : Nat}
    (hn : node < nb) (h1 : rowSum.length = nb * n) (h2 : rhs.length = nb * n)
    (h3 : lhs.length = nb * n) (hne : ∀ v, v < nb * n → at0 rowSum v ≠ 0) :
    (inverseWeightRow n scale rowSum rhs node lhs).Sat fun lhs' =>
      lhs'.length = lhs.length ∧
      (∀ v, v / n = node → v < nb * n → at0 lhs' v * at0 rowSum v = at0 rhs v * scale) ∧
      (∀ v, v / n ≠ node → at0 lhs' v = at0 lhs v) := by
  unfold inverseWeightRow
  refine (forRange_inv (fun i s => s.length = lhs.length ∧
    ∀ v, at0 s v = if node * n ≤ v ∧ v < node * n + i then at0 rhs v / at0 rowSum v * scale
      else at0 lhs v) (Nat.zero_le _) ?_ ?_).mono ?_
  · refine ⟨rfl, fun v => ?_⟩
    rw [if_neg (by omega)]
  · rintro i s - hi ⟨hl, hs⟩
    have hvec : node * n + i < nb * n := by rw [Nat.mul_comm node]; exact block_lt hi hn
    simp only
    rw [rd_at0 (by omega), rd_at0 (by omega)]
    simp only [Res.ok_bind]
    rw [wr_eq (by omega)]
    simp only [Res.sat_ok]
    refine ⟨by simpa using hl, ?_⟩
    intro v
    rw [at0_set (by omega)]
    split
    · next heq => subst heq; rw [if_pos (by omega)]
    · next hne =>
      rw [hs]
      by_cases hc : node * n ≤ v ∧ v < node * n + i
      · rw [if_pos hc, if_pos (by omega)]
      · rw [if_neg hc, if_neg (by omega)]
  · rintro s ⟨hl, hs⟩
    refine ⟨hl, ?_, ?_⟩
    · intro v hv hvlt
      have hpos : 0 < n := by
        rcases Nat.eq_zero_or_pos n with h | h
        · subst h; simp at hvlt
        · exact h
      have h4 := Nat.div_add_mod v n
      have h5 := Nat.mod_lt v hpos
      rw [hv, Nat.mul_comm] at h4
      rw [hs, if_pos (by omega)]
      have := hne v hvlt
      field_simp
    · intro v hv
      rw [hs, if_neg]
      rintro ⟨h4, h5⟩
      apply hv
      obtain ⟨r, rfl⟩ := Nat.exists_eq_add_of_le h4
      rw [Nat.mul_comm]; exact div_block (by omega)

end

/-- Hypotheses of C04 are met: the row sums of this matrix are nonzero (over ℚ-like values the
matrix is the one of C01 with two rows per block). -/
example : ∀ i, i < 2 * exampleCrs.rpb →
    ∑ j ∈ range (3 * exampleCrs.cpb), exampleCrs.dense i j ≠ 0 := by decide

end Plato
