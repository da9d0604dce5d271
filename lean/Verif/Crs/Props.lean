import Verif.Crs.Lemmas

/-!
# C01: sparse product
-/

namespace Plato
open Finset
variable {K : Type}

/-- C01.  For every well formed CRS matrix (block or scalar), every input vector, every
right-hand vector and every row schedule, `MatrixTimesVectorPlusVector` returns normally and
adds `∑ⱼ A(i,j) x(j)` to every output entry. -/
theorem C01_matvec [CommSemiring K] {A : Crs K} {nb mb : Nat} (h : A.WF nb mb) (x b : List K)
    (hx : x.length = mb * A.cpb) (hb : b.length = nb * A.rpb) {order : List Nat}
    (ho : IsSchedule order nb) :
    (matvecPlus order A x b).Sat fun b' => b'.length = b.length ∧
      ∀ i, i < nb * A.rpb →
        at0 b' i = at0 b i + ∑ j ∈ range (mb * A.cpb), A.dense i j * at0 x j := by
  have step : ∀ (body : Nat → List K → Res (List K)),
      (∀ (b : List K), b.length = nb * A.rpb → ∀ node, node < nb →
        (body node b).Sat fun b' => b'.length = b.length ∧
          ∀ i, at0 b' i = at0 b i + if i / A.rpb = node then
            ∑ k ∈ Ico (atN A.rowMap node) (atN A.rowMap (node + 1)), blockDot A x k (i % A.rpb)
            else 0) →
      (parFor order b body).Sat fun b' => b'.length = b.length ∧
        ∀ i, i < nb * A.rpb →
          at0 b' i = at0 b i + ∑ j ∈ range (mb * A.cpb), A.dense i j * at0 x j := by
    intro body hbody
    refine (parFor_sched ho (fun D b' => b'.length = b.length ∧ ∀ i, at0 b' i = at0 b i +
      if i / A.rpb ∈ D then
        ∑ k ∈ Ico (atN A.rowMap (i / A.rpb)) (atN A.rowMap (i / A.rpb + 1)),
          blockDot A x k (i % A.rpb) else 0) ?_ ?_).mono ?_
    · simp
    · rintro D node b1 hn hD - ⟨hl, hb1⟩
      refine (hbody b1 (hl.trans hb) node hn).mono ?_
      rintro b2 ⟨hl2, hb2⟩
      refine ⟨hl2.trans hl, ?_⟩
      intro i
      rw [hb2, hb1]
      by_cases hc : i / A.rpb = node
      · subst hc; simp [hD]
      · simp [hc]
    · rintro b' ⟨hl, hb'⟩
      refine ⟨hl, ?_⟩
      intro i hi
      have hi' : i / A.rpb < nb := Nat.div_lt_of_lt_mul (by rwa [Nat.mul_comm] at hi)
      rw [hb', if_pos (mem_range.2 hi'), dense_mul_eq h x hi]
  unfold matvecPlus
  simp only [Crs.numCols, Crs.numRows, h.numCols_eq, h.numRows_eq, Res.ok_bind]
  rw [if_neg (by simp [hx]), if_neg (by simp [hb])]
  by_cases hbl : A.isBlock = true
  · rw [if_pos hbl]
    exact step _ fun b1 hb1 node hn => matvecBlockRow_sat h x b1 hx hb1 hn
  · rw [if_neg hbl]
    have hle : A.cpb * A.rpb ≤ 1 := by
      simp [Crs.isBlock] at hbl; omega
    have hr := h.rpb_pos
    have hc := h.cpb_pos
    have hc1 : A.cpb = 1 := by
      have : A.cpb * 1 ≤ A.cpb * A.rpb := Nat.mul_le_mul_left _ hr
      omega
    have hr1 : A.rpb = 1 := by rw [hc1] at hle; omega
    exact step _ fun b1 hb1 node hn => matvecRow_sat h hr1 hc1 x b1 hx hb1 hn

/-- C01, error branches: a length mismatch is reported before anything is written. -/
theorem C01_matvec_rejects [CommSemiring K] (A : Crs K) (x b : List K) (order : List Nat)
    {nr nc : Nat} (hr : A.numRows? = some nr) (hc : A.numCols? = some nc)
    (hbad : x.length ≠ nc ∨ b.length ≠ nr) :
    ∃ m, matvecPlus order A x b = Res.err m := by
  unfold matvecPlus
  simp only [Crs.numCols, Crs.numRows, hr, hc, Res.ok_bind]
  by_cases h1 : nc = x.length
  · rw [if_neg (by simp [h1])]
    by_cases h2 : nr = b.length
    · exfalso; rcases hbad with h | h
      · exact h h1.symm
      · exact h h2.symm
    · rw [if_pos h2]; exact ⟨_, rfl⟩
  · rw [if_pos h1]; exact ⟨_, rfl⟩

/-- A concrete matrix with two block rows, three block columns and 2 x 1 blocks. -/
def exampleCrs : Crs Int where
  rowMap := [0, 2, 3]
  cols := [0, 2, 1]
  vals := [1, 2, 3, 4, 5, 6]
  numRows? := some 4
  numCols? := some 3
  rpb := 2
  cpb := 1

/-- The hypotheses of `C01_matvec` are met by a non-trivial matrix. -/
theorem exampleCrs_WF : exampleCrs.WF 2 3 where
  rpb_pos := by decide
  cpb_pos := by decide
  rowMap_length := rfl
  rowMap_zero := rfl
  rowMap_mono := by decide
  rowMap_last := rfl
  cols_lt := by decide
  vals_length := rfl
  numRows_eq := rfl
  numCols_eq := rfl

example : matvecPlus [1, 0] exampleCrs [1, 10, 100] [0, 0, 0, 1] = Res.ok [301, 402, 50, 61] := by
  decide

end Plato
