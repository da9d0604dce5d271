import Mathlib.Tactic.Ring
import Verif.Crs.Lemmas
import Verif.Solver.Model

/-!
# C102: the system handed to a linear solver library
-/

namespace Plato.Solver
open Finset
variable {K : Type}

/-- Equality of a product plus remainder with a number, in quotient and remainder. -/
theorem split_eq {d i j r : Nat} (hj : j < d) : r = i * d + j ↔ r / d = i ∧ r % d = j := by
  constructor
  · rintro rfl
    refine ⟨?_, ?_⟩
    · rw [Nat.mul_comm, Nat.mul_add_div (by omega), Nat.div_eq_of_lt hj, Nat.add_zero]
    · rw [Nat.mul_comm, Nat.mul_add_mod, Nat.mod_eq_of_lt hj]
  · rintro ⟨h1, h2⟩
    rw [← h1, ← h2, Nat.mul_comm]
    exact (Nat.div_add_mod r d).symm

variable [AddCommMonoid K]

/-- The insertion of the entries of one block. -/
theorem block_sat {A : Crs K} {nb mb : Nat} (h : A.WF nb mb) {k : Nat} (hk : k < A.cols.length)
    (i c B : Nat) (hB : B = A.rpb * A.cpb) (M : Mat K) :
    (forRange 0 A.rpb M fun j M =>
      forRange 0 A.cpb M fun q M => do
        let v ← rd A.vals (k * B + j * A.cpb + q)
        pure (insert M (i * A.rpb + j) (c * A.cpb + q) v)).Sat fun M' => ∀ r s,
      M' r s = M r s + if r / A.rpb = i ∧ c = s / A.cpb then
        at0 A.vals (A.rpb * A.cpb * k + A.cpb * (r % A.rpb) + s % A.cpb) else 0 := by
  subst hB
  refine (forRange_inv (fun j M' => ∀ r s, M' r s = M r s +
    if r / A.rpb = i ∧ r % A.rpb < j ∧ c = s / A.cpb then
        at0 A.vals (A.rpb * A.cpb * k + A.cpb * (r % A.rpb) + s % A.cpb) else 0)
    (Nat.zero_le _) (by intro r s; simp) ?_).mono ?_
  · intro j M1 _ hj h1
    refine (forRange_inv (fun q M' => ∀ r s, M' r s = M1 r s +
      if r / A.rpb = i ∧ r % A.rpb = j ∧ c = s / A.cpb ∧ s % A.cpb < q then
        at0 A.vals (A.rpb * A.cpb * k + A.cpb * (r % A.rpb) + s % A.cpb) else 0)
      (Nat.zero_le _) (by intro r s; simp) ?_).mono ?_
    · intro q M2 _ hq h2
      have hlt := entry_lt h hk hj hq
      have e : k * (A.rpb * A.cpb) + j * A.cpb + q = A.rpb * A.cpb * k + A.cpb * j + q := by ring
      rw [e, rd_at0 hlt]
      simp only [Res.ok_bind, Res.sat_pure]
      intro r s
      unfold insert
      rw [h2 r s]
      by_cases hr : r = i * A.rpb + j
      · by_cases hs : s = c * A.cpb + q
        · obtain ⟨r1, r2⟩ := (split_eq hj).1 hr
          obtain ⟨s1, s2⟩ := (split_eq hq).1 hs
          rw [if_pos ⟨hr, hs⟩, if_neg (by omega), if_pos ⟨r1, r2, s1.symm, by omega⟩, add_zero,
            r2, s2]
        · rw [if_neg (fun x => hs x.2)]
          congr 1
          have hne : ¬ (s / A.cpb = c ∧ s % A.cpb = q) := fun x => hs ((split_eq hq).2 x)
          refine if_congr ?_ rfl rfl
          constructor
          · rintro ⟨a1, a2, a3, a4⟩; exact ⟨a1, a2, a3, by omega⟩
          · rintro ⟨a1, a2, a3, a4⟩; exact ⟨a1, a2, a3, by omega⟩
      · rw [if_neg (fun x => hr x.1)]
        have hne : ¬ (r / A.rpb = i ∧ r % A.rpb = j) := fun x => hr ((split_eq hj).2 x)
        rw [if_neg (fun x => hne ⟨x.1, x.2.1⟩), if_neg (fun x => hne ⟨x.1, x.2.1⟩)]
    · intro M2 h2 r s
      rw [h2 r s, h1 r s, add_assoc]
      congr 1
      have hs : s % A.cpb < A.cpb := Nat.mod_lt _ h.cpb_pos
      by_cases h3 : r / A.rpb = i ∧ c = s / A.cpb
      · obtain ⟨h3, h4⟩ := h3
        rcases Nat.lt_trichotomy (r % A.rpb) j with h5 | h5 | h5
        · rw [if_pos ⟨h3, h5, h4⟩, if_neg (by omega), if_pos ⟨h3, by omega, h4⟩, add_zero]
        · rw [if_neg (by omega), if_pos ⟨h3, h5, h4, hs⟩, if_pos ⟨h3, by omega, h4⟩, zero_add]
        · rw [if_neg (by omega), if_neg (by omega), if_neg (by omega), add_zero]
      · rw [if_neg (fun x => h3 ⟨x.1, x.2.2⟩), if_neg (fun x => h3 ⟨x.1, x.2.2.1⟩),
          if_neg (fun x => h3 ⟨x.1, x.2.2⟩), add_zero]
  · intro M' h' r s
    rw [h' r s]
    congr 1
    have hr : r % A.rpb < A.rpb := Nat.mod_lt _ h.rpb_pos
    exact if_congr ⟨fun x => ⟨x.1, x.2.2⟩, fun x => ⟨x.1, hr, x.2⟩⟩ rfl rfl

/-- The insertion of the blocks of one row, with any correct way to read the column. -/
theorem row_sat {A : Crs K} {nb mb : Nat} (h : A.WF nb mb) {i : Nat} (hi : i < nb) (B : Nat)
    (hB : B = A.rpb * A.cpb) (col : Nat → Res Nat)
    (hcol : ∀ k, atN A.rowMap i ≤ k → k < atN A.rowMap (i + 1) → col k = Res.ok (atN A.cols k))
    (M : Mat K) (hM : ∀ r s, M r s = if r / A.rpb < i then A.dense r s else 0) :
    (forRange (atN A.rowMap i) (atN A.rowMap (i + 1)) M fun k M => do
      let c ← col k
      forRange 0 A.rpb M fun j M =>
        forRange 0 A.cpb M fun q M => do
          let v ← rd A.vals (k * B + j * A.cpb + q)
          pure (insert M (i * A.rpb + j) (c * A.cpb + q) v)).Sat fun M' => ∀ r s,
      M' r s = if r / A.rpb < i + 1 then A.dense r s else 0 := by
  have hle := h.rowEnd_le hi
  refine (forRange_inv (fun k M' => ∀ r s, M' r s = M r s +
    if r / A.rpb = i then ∑ l ∈ Ico (atN A.rowMap i) k, (if atN A.cols l = s / A.cpb then
        at0 A.vals (A.rpb * A.cpb * l + A.cpb * (r % A.rpb) + s % A.cpb) else 0) else 0)
    (h.rowMap_mono i hi) (by intro r s; simp) ?_).mono ?_
  · intro k M1 hk1 hk2 h1
    rw [hcol k hk1 hk2]
    simp only [Res.ok_bind]
    refine (block_sat h (by omega) i _ B hB M1).mono ?_
    intro M2 h2 r s
    rw [h2 r s, h1 r s, add_assoc]
    congr 1
    by_cases hr : r / A.rpb = i
    · rw [if_pos hr, if_pos hr, sum_Ico_succ_top hk1]
      congr 1
      exact if_congr ⟨fun x => x.2, fun x => ⟨hr, x⟩⟩ rfl rfl
    · rw [if_neg hr, if_neg hr, if_neg (fun x => hr x.1), add_zero]
  · intro M' h' r s
    rw [h' r s, hM r s]
    rcases Nat.lt_trichotomy (r / A.rpb) i with h5 | h5 | h5
    · rw [if_pos h5, if_neg (by omega), if_pos (by omega), add_zero]
    · rw [if_neg (by omega), if_pos h5, if_pos (by omega), zero_add, Crs.dense, h5]
    · rw [if_neg (by omega), if_neg (by omega), if_neg (by omega), add_zero]

/-- **C102.**  Tpetra receives exactly the entries of the assembled matrix. -/
theorem C102_tpetra_matrix {A : Crs K} {nb mb : Nat} (h : A.WF nb mb) :
    (tpetraMatrix (nb * A.rpb) A).Sat fun M => ∀ r s, r < nb * A.rpb → M r s = A.dense r s := by
  unfold tpetraMatrix
  rw [if_neg (by rw [h.rowMap_length]; omega)]
  have e : A.rowMap.length - 1 = nb := by rw [h.rowMap_length]; omega
  dsimp only
  rw [e, if_neg (by simp)]
  refine (forRange_inv (fun i M => ∀ r s, M r s = if r / A.rpb < i then A.dense r s else 0)
    (Nat.zero_le _) (by intro r s; simp) ?_).mono ?_
  · intro i M _ hi hM
    rw [h.rd_start hi, h.rd_end hi]
    simp only [Res.ok_bind]
    exact row_sat h hi _ rfl (fun k => rd A.cols k)
      (fun k _ hk2 => rd_atN (by have := h.rowEnd_le hi; omega)) M hM
  · intro M hM r s hr
    rw [hM r s, if_pos (Nat.div_lt_of_lt_mul (by rw [Nat.mul_comm]; exact hr))]

/-- **C102.**  A matrix of another size than the system of the mesh is rejected by Tpetra. -/
theorem C102_tpetra_rejects {A : Crs K} {nb mb : Nat} (h : A.WF nb mb) (N : Nat)
    (hN : N ≠ nb * A.rpb) : ∃ e, tpetraMatrix N A = Res.err e := by
  unfold tpetraMatrix
  rw [if_neg (by rw [h.rowMap_length]; omega)]
  have e : A.rowMap.length - 1 = nb := by rw [h.rowMap_length]; omega
  dsimp only
  rw [e, if_pos (fun x => hN x.symm)]
  exact ⟨_, rfl⟩

theorem maxEntries_sat {A : Crs K} {nb mb : Nat} (h : A.WF nb mb) {n : Nat} (hn : n ≤ nb) :
    (maxEntries n A).Sat fun m => ∀ i, i < n → atN A.rowMap (i + 1) - atN A.rowMap i ≤ m := by
  unfold maxEntries
  refine forRange_inv (fun n m => ∀ i, i < n → atN A.rowMap (i + 1) - atN A.rowMap i ≤ m)
    (Nat.zero_le _) (by intro i hi; omega) ?_
  intro i m _ hi hm
  rw [h.rd_end (by omega : i < nb), h.rd_start (by omega : i < nb)]
  simp only [Res.ok_bind, Res.sat_pure]
  intro l hl
  by_cases hli : l = i
  · subst hli; split <;> omega
  · have := hm l (by omega)
    split <;> omega

/-- What Epetra receives: the first `n` block rows. -/
theorem epetra_sat {A : Crs K} {nb mb : Nat} (h : A.WF nb mb) {n : Nat} (hn : n ≤ nb)
    (hrc : A.rpb = A.cpb) :
    (epetraMatrix n A.rpb A).Sat fun M => ∀ r s, M r s = if r / A.rpb < n then A.dense r s else 0 := by
  unfold epetraMatrix
  refine (maxEntries_sat h hn).bind ?_
  intro m hm
  rw [if_neg (by simp [hrc])]
  refine forRange_inv (fun i (M : Mat K) => ∀ r s, M r s = if r / A.rpb < i then A.dense r s else 0)
    (Nat.zero_le _) (by intro r s; simp) ?_
  intro i M _ hi hM
  have hi' : i < nb := by omega
  have hle := h.rowEnd_le hi'
  rw [h.rd_start hi', h.rd_end hi']
  simp only [Res.ok_bind]
  refine Res.Sat.bind (P := fun cs => cs.length = m ∧
    ∀ l, l < atN A.rowMap (i + 1) - atN A.rowMap i → atN cs l = atN A.cols (atN A.rowMap i + l)) ?_ ?_
  · refine forRange_inv (fun q cs => cs.length = m ∧
      ∀ l, l < q → atN cs l = atN A.cols (atN A.rowMap i + l)) (Nat.zero_le _)
      ⟨List.length_replicate, by intro l hl; omega⟩ ?_
    rintro q cs _ hq ⟨h1, h2⟩
    rw [rd_atN (by omega)]
    simp only [Res.ok_bind]
    have hql : q < cs.length := by have := hm i hi; omega
    rw [wr_eq hql]
    refine Res.Sat.ok ⟨by simpa using h1, ?_⟩
    intro l hl
    rw [atN_set hql]
    by_cases hlq : l = q
    · rw [if_pos hlq, hlq]
    · rw [if_neg hlq]; exact h2 l (by omega)
  · rintro cs ⟨h1, h2⟩
    have := row_sat h hi' (A.cpb * A.rpb) (Nat.mul_comm _ _) (fun k => rd cs (k - atN A.rowMap i))
      (fun k hk1 hk2 => by
        have := hm i hi
        rw [rd_atN (by omega), h2 _ (by omega)]
        congr 2; omega) M hM
    rw [← hrc] at this ⊢
    exact this

/-- **C102.**  Epetra receives exactly the entries of the assembled matrix if there is one block
row per node and the blocks are as large as the number of degrees of freedom of a node. -/
theorem C102_epetra_matrix_partial {A : Crs K} {nb mb : Nat} (h : A.WF nb mb)
    (hrc : A.rpb = A.cpb) :
    (epetraMatrix nb A.rpb A).Sat fun M => ∀ r s, r < nb * A.rpb → M r s = A.dense r s := by
  refine (epetra_sat h (le_refl _) hrc).mono ?_
  intro M hM r s hr
  rw [hM r s, if_pos (Nat.div_lt_of_lt_mul (by rw [Nat.mul_comm]; exact hr))]

/-- **C102, refuted without the hypothesis on the number of rows:** a matrix with more block rows
than the mesh has nodes is accepted by Epetra, and its remaining rows are not handed over. -/
theorem C102_epetra_rows_false {A : Crs K} {nb mb : Nat} (h : A.WF nb mb) (hrc : A.rpb = A.cpb)
    {n : Nat} (hn : n < nb) :
    (epetraMatrix n A.rpb A).Sat fun M => ∀ r s, n * A.rpb ≤ r → M r s = 0 := by
  refine (epetra_sat h (by omega) hrc).mono ?_
  intro M hM r s hr
  rw [hM r s, if_neg]
  have := (Nat.le_div_iff_mul_le h.rpb_pos).2 hr
  omega

end Plato.Solver
