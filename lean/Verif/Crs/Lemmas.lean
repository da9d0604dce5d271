import Verif.Crs.Spec

namespace Plato
open Finset
variable {K : Type}

theorem Crs.WF.rowMap_le_of_le {A : Crs K} {nb mb : Nat} (h : A.WF nb mb) :
    ∀ i j, i ≤ j → j ≤ nb → atN A.rowMap i ≤ atN A.rowMap j := by
  intro i j hij hj
  induction j with
  | zero => have : i = 0 := by omega
            subst this; exact Nat.le_refl _
  | succ j ih =>
    by_cases hc : i = j + 1
    · subst hc; exact Nat.le_refl _
    · exact Nat.le_trans (ih (by omega) (by omega)) (h.rowMap_mono j (by omega))

theorem Crs.WF.rowEnd_le {A : Crs K} {nb mb : Nat} (h : A.WF nb mb) {i : Nat} (hi : i < nb) :
    atN A.rowMap (i + 1) ≤ A.cols.length := by
  rw [← h.rowMap_last]; exact h.rowMap_le_of_le _ _ (by omega) (Nat.le_refl _)

theorem Crs.WF.rd_start {A : Crs K} {nb mb : Nat} (h : A.WF nb mb) {i : Nat} (hi : i < nb) :
    rd A.rowMap i = Res.ok (atN A.rowMap i) := rd_at0 (by rw [h.rowMap_length]; omega)

theorem Crs.WF.rd_end {A : Crs K} {nb mb : Nat} (h : A.WF nb mb) {i : Nat} (hi : i < nb) :
    rd A.rowMap (i + 1) = Res.ok (atN A.rowMap (i + 1)) :=
  rd_at0 (by rw [h.rowMap_length]; omega)

/-- Contribution of stored block `k` to local row `r` of a product with `x`. -/
def blockDot [AddCommMonoid K] [Mul K] (A : Crs K) (x : List K) (k r : Nat) : K :=
  ∑ jj ∈ range A.cpb, at0 A.vals (A.rpb * A.cpb * k + A.cpb * r + jj) * at0 x (A.cpb * atN A.cols k + jj)

theorem entry_lt {A : Crs K} {nb mb : Nat} (h : A.WF nb mb) {k r c : Nat} (hk : k < A.cols.length)
    (hr : r < A.rpb) (hc : c < A.cpb) : A.rpb * A.cpb * k + A.cpb * r + c < A.vals.length := by
  rw [h.vals_length]
  have h1 : A.cpb * r + c < A.rpb * A.cpb := block_lt hc hr
  have h2 : A.rpb * A.cpb * (k + 1) ≤ A.rpb * A.cpb * A.cols.length := Nat.mul_le_mul_left _ hk
  rw [Nat.mul_add] at h2; omega

section
variable [CommSemiring K]

theorem dense_mul_eq {A : Crs K} {nb mb : Nat} (h : A.WF nb mb) (x : List K) {i : Nat}
    (hi : i < nb * A.rpb) :
    ∑ j ∈ range (mb * A.cpb), A.dense i j * at0 x j =
      ∑ k ∈ Ico (atN A.rowMap (i / A.rpb)) (atN A.rowMap (i / A.rpb + 1)),
        blockDot A x k (i % A.rpb) := by
  have hi' : i / A.rpb < nb := Nat.div_lt_of_lt_mul (by rwa [Nat.mul_comm] at hi)
  unfold Crs.dense
  simp only [sum_mul]
  rw [sum_comm]
  apply sum_congr rfl
  intro k hk
  have hk' : k < A.cols.length := lt_of_lt_of_le (mem_Ico.1 hk).2 (h.rowEnd_le hi')
  have hq : atN A.cols k < mb := h.cols_lt k hk'
  have := sum_block_ite (K := K) (fun q r =>
    at0 A.vals (A.rpb * A.cpb * k + A.cpb * (i % A.rpb) + r) * at0 x (A.cpb * q + r))
    (n := mb) (c := A.cpb) hq
  rw [blockDot, ← this]
  apply sum_congr rfl
  intro j _
  simp only [ite_mul, zero_mul]
  rw [Nat.div_add_mod]

theorem matvec_inner_sat {A : Crs K} {nb mb : Nat} (h : A.WF nb mb) (x : List K)
    (hx : x.length = mb * A.cpb) {k r : Nat} (hk : k < A.cols.length) (hr : r < A.rpb) :
    (forRange (A.cpb * atN A.cols k) (A.cpb * atN A.cols k + A.cpb)
      ((0 : K), A.rpb * A.cpb * k + A.cpb * r) (fun j s => do
        let a ← rd A.vals s.2
        let xj ← rd x j
        pure (s.1 + a * xj, s.2 + 1))).Sat
      (· = (blockDot A x k r, A.rpb * A.cpb * k + A.cpb * (r + 1))) := by
  have hcol := h.cols_lt k hk
  refine (forRange_inv (fun j s =>
    s = (∑ jj ∈ range (j - A.cpb * atN A.cols k),
      at0 A.vals (A.rpb * A.cpb * k + A.cpb * r + jj) * at0 x (A.cpb * atN A.cols k + jj),
      A.rpb * A.cpb * k + A.cpb * r + (j - A.cpb * atN A.cols k))) (by omega) ?_ ?_).mono ?_
  · simp
  · rintro j s h1 h2 rfl
    obtain ⟨jj, rfl⟩ := Nat.exists_eq_add_of_le h1
    have hjj : jj < A.cpb := by omega
    have hv := entry_lt h hk hr hjj
    have hxl : A.cpb * atN A.cols k + jj < x.length := by rw [hx]; exact block_lt hjj hcol
    simp only [Nat.add_sub_cancel_left]
    rw [rd_at0 hv, rd_at0 hxl]
    have : A.cpb * atN A.cols k + jj + 1 - A.cpb * atN A.cols k = jj + 1 := by omega
    simp [this, sum_range_succ]; omega
  · rintro s rfl
    simp [blockDot, Nat.mul_add]; omega

theorem matvecBlockRow_sat {A : Crs K} {nb mb : Nat} (h : A.WF nb mb) (x b : List K)
    (hx : x.length = mb * A.cpb) (hb : b.length = nb * A.rpb) {node : Nat} (hn : node < nb) :
    (matvecBlockRow A x node b).Sat fun b' => b'.length = b.length ∧
      ∀ i, at0 b' i = at0 b i + if i / A.rpb = node then
        ∑ k ∈ Ico (atN A.rowMap node) (atN A.rowMap (node + 1)), blockDot A x k (i % A.rpb)
        else 0 := by
  unfold matvecBlockRow
  rw [h.rd_start hn, h.rd_end hn]
  simp only [Res.ok_bind]
  refine forRange_inv (fun k b' => b'.length = b.length ∧
      ∀ i, at0 b' i = at0 b i + if i / A.rpb = node then
        ∑ k ∈ Ico (atN A.rowMap node) k, blockDot A x k (i % A.rpb) else 0)
    (h.rowMap_mono node hn) ?_ ?_
  · simp
  · rintro k b1 hk1 hk2 ⟨hl, hb1⟩
    have hk : k < A.cols.length := lt_of_lt_of_le hk2 (h.rowEnd_le hn)
    rw [rd_at0 hk]
    simp only [Res.ok_bind]
    refine Res.Sat.bind (P := fun st => st.2.length = b.length ∧
      ∀ i, at0 st.2 i = at0 b1 i + if i / A.rpb = node then blockDot A x k (i % A.rpb) else 0) ?_ ?_
    · refine (forRange_inv (fun i st => st.1 = A.rpb * A.cpb * k + A.cpb * (i - A.rpb * node) ∧
        st.2.length = b.length ∧ ∀ i', at0 st.2 i' = at0 b1 i' +
          if A.rpb * node ≤ i' ∧ i' < i then blockDot A x k (i' % A.rpb) else 0)
        (by omega) ?_ ?_).mono ?_
      · refine ⟨by simp, hl, ?_⟩
        intro i'
        rw [if_neg (by omega)]; simp
      · rintro i ⟨e, b2⟩ hi1 hi2 ⟨he, hl2, hb2⟩
        simp only at he hl2 hb2
        obtain ⟨r, rfl⟩ := Nat.exists_eq_add_of_le hi1
        have hr : r < A.rpb := by omega
        rw [Nat.add_sub_cancel_left] at he
        subst he
        refine Res.Sat.bind (matvec_inner_sat h x hx hk hr) ?_
        rintro _ rfl
        have hil : A.rpb * node + r < b2.length := by
          rw [hl2, hb]; exact block_lt hr hn
        rw [rd_at0 hil]
        simp only [Res.ok_bind]
        rw [wr_eq hil]
        simp only [Res.ok_bind, Res.pure_eq, Res.sat_ok]
        refine ⟨by congr 2; omega, by simpa using hl2, ?_⟩
        intro i'
        rw [at0_set hil]
        split
        · next heq =>
          subst heq
          rw [hb2, if_neg (by omega), if_pos (by omega), mod_block hr]; simp
        · next hne =>
          rw [hb2]
          congr 1
          by_cases hc : A.rpb * node ≤ i' ∧ i' < A.rpb * node + r
          · rw [if_pos hc, if_pos (by omega)]
          · rw [if_neg hc, if_neg (by omega)]
      · rintro ⟨e, b2⟩ ⟨-, hl2, hb2⟩
        refine ⟨hl2, ?_⟩
        intro i
        rw [hb2]
        congr 1
        have hp := h.rpb_pos
        by_cases hc : i / A.rpb = node
        · rw [if_pos hc, if_pos]
          have := Nat.div_add_mod i A.rpb
          have := Nat.mod_lt i hp
          rw [hc] at *; omega
        · rw [if_neg hc, if_neg]
          rintro ⟨h1, h2⟩
          apply hc
          obtain ⟨r, rfl⟩ := Nat.exists_eq_add_of_le h1
          exact div_block (by omega)
    · rintro ⟨e, b2⟩ ⟨hl2, hb2⟩
      simp only [Res.pure_eq, Res.sat_ok]
      refine ⟨hl2, ?_⟩
      intro i
      rw [hb2, hb1]
      by_cases hc : i / A.rpb = node
      · simp only [if_pos hc]
        rw [sum_Ico_succ_top hk1, add_assoc]
      · simp [hc]

theorem matvecRow_sat {A : Crs K} {nb mb : Nat} (h : A.WF nb mb) (hr1 : A.rpb = 1)
    (hc1 : A.cpb = 1) (x b : List K)
    (hx : x.length = mb * A.cpb) (hb : b.length = nb * A.rpb) {node : Nat} (hn : node < nb) :
    (matvecRow A x node b).Sat fun b' => b'.length = b.length ∧
      ∀ i, at0 b' i = at0 b i + if i / A.rpb = node then
        ∑ k ∈ Ico (atN A.rowMap node) (atN A.rowMap (node + 1)), blockDot A x k (i % A.rpb)
        else 0 := by
  unfold matvecRow
  rw [h.rd_start hn, h.rd_end hn]
  simp only [Res.ok_bind]
  refine Res.Sat.bind (P := fun s => s =
    ∑ k ∈ Ico (atN A.rowMap node) (atN A.rowMap (node + 1)), blockDot A x k 0) ?_ ?_
  · refine forRange_inv (fun k s => s = ∑ k ∈ Ico (atN A.rowMap node) k, blockDot A x k 0)
      (h.rowMap_mono node hn) (by simp) ?_
    rintro k s hk1 hk2 rfl
    have hk : k < A.cols.length := lt_of_lt_of_le hk2 (h.rowEnd_le hn)
    have hv : k < A.vals.length := by rw [h.vals_length, hr1, hc1]; omega
    have hcx : atN A.cols k < x.length := by rw [hx, hc1]; have := h.cols_lt k hk; omega
    rw [rd_at0 hk, rd_at0 hv]
    simp only [Res.ok_bind]
    rw [rd_at0 hcx]
    simp only [Res.ok_bind, Res.pure_eq, Res.sat_ok]
    rw [sum_Ico_succ_top hk1]
    simp [blockDot, hr1, hc1]
  · rintro s rfl
    have hl : node < b.length := by rw [hb, hr1]; omega
    rw [rd_at0 hl]
    simp only [Res.ok_bind]
    rw [wr_eq hl]
    simp only [Res.sat_ok]
    refine ⟨by simp, ?_⟩
    intro i
    rw [at0_set hl]
    simp only [hr1, Nat.div_one, Nat.mod_one]
    split <;> simp_all

end
end Plato
