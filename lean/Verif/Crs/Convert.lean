import Verif.Crs.ConvertModel
import Verif.Crs.Lemmas
import Verif.Crs.Sort

/-!
# Lemmas about the block/scalar conversion
-/

namespace Plato
open Finset
variable {K : Type}

/-- Position of the first scalar entry of scalar row `i`, for a block row map `rowMap`. -/
def nbPosL (rowMap : List Nat) (cpb R i : Nat) : Nat :=
  atN rowMap (i / R) * (R * cpb) + i % R * (atN rowMap (i / R + 1) - atN rowMap (i / R)) * cpb

/-- Position of the first scalar entry of scalar row `i`. -/
abbrev nbPos (A : Crs K) (R i : Nat) : Nat := nbPosL A.rowMap A.cpb R i

/-- number of blocks in block row `I` -/
def rowLenL (rowMap : List Nat) (I : Nat) : Nat := atN rowMap (I + 1) - atN rowMap I

/-- number of blocks in block row `I` -/
abbrev rowLen (A : Crs K) (I : Nat) : Nat := rowLenL A.rowMap I

theorem rowMapL_succ {rowMap : List Nat} {nb : Nat}
    (h : ∀ i, i < nb → atN rowMap i ≤ atN rowMap (i + 1)) {I : Nat} (hI : I < nb) :
    atN rowMap (I + 1) = atN rowMap I + rowLenL rowMap I := by
  have := h I hI; unfold rowLenL; omega

theorem Crs.WF.rowMap_succ {A : Crs K} {nb mb : Nat} (h : A.WF nb mb) {I : Nat} (hI : I < nb) :
    atN A.rowMap (I + 1) = atN A.rowMap I + rowLen A I := rowMapL_succ h.rowMap_mono hI

theorem div_mod_succ {R i : Nat} (_hR : 0 < R) (h : i % R + 1 < R) :
    (i + 1) / R = i / R ∧ (i + 1) % R = i % R + 1 := by
  have e := Nat.div_add_mod i R
  have e1 : i + 1 = R * (i / R) + (i % R + 1) := by omega
  refine ⟨?_, ?_⟩
  · conv_lhs => rw [e1]
    exact div_block h
  · conv_lhs => rw [e1]
    exact mod_block h

theorem div_mod_wrap {R i : Nat} (hR : 0 < R) (h : i % R + 1 = R) :
    (i + 1) / R = i / R + 1 ∧ (i + 1) % R = 0 := by
  have e := Nat.div_add_mod i R
  have e1 : i + 1 = R * (i / R + 1) + 0 := by rw [Nat.mul_add]; omega
  refine ⟨?_, ?_⟩
  · conv_lhs => rw [e1]
    exact div_block hR
  · conv_lhs => rw [e1]
    exact mod_block hR

theorem div_lt_of_lt {R i nb : Nat} (h : i < nb * R) : i / R < nb :=
  Nat.div_lt_of_lt_mul (by rwa [Nat.mul_comm] at h)

theorem nbPosL_succ {rowMap : List Nat} {cpb nb : Nat}
    (h : ∀ i, i < nb → atN rowMap i ≤ atN rowMap (i + 1)) {R i : Nat} (hR : 0 < R)
    (hi : i < nb * R) :
    nbPosL rowMap cpb R (i + 1) = nbPosL rowMap cpb R i + rowLenL rowMap (i / R) * cpb := by
  have hI := div_lt_of_lt hi
  have hs := rowMapL_succ h hI
  by_cases hc : i % R + 1 < R
  · obtain ⟨e1, e2⟩ := div_mod_succ hR hc
    unfold nbPosL
    rw [e1, e2]
    unfold rowLenL
    ring
  · have hw : i % R + 1 = R := by have := Nat.mod_lt i hR; omega
    obtain ⟨e1, e2⟩ := div_mod_wrap hR hw
    unfold nbPosL
    rw [e1, e2]
    have e3 : atN rowMap (i / R + 1) - atN rowMap (i / R) = rowLenL rowMap (i / R) := rfl
    rw [e3, hs]
    obtain ⟨q, hq⟩ : ∃ q, q = i % R := ⟨_, rfl⟩
    rw [← hq] at hw ⊢
    rw [← hw]
    ring

theorem nbPosL_mono {rowMap : List Nat} {cpb nb : Nat}
    (h : ∀ i, i < nb → atN rowMap i ≤ atN rowMap (i + 1)) {R : Nat} (hR : 0 < R) :
    ∀ i j, i ≤ j → j ≤ nb * R → nbPosL rowMap cpb R i ≤ nbPosL rowMap cpb R j := by
  intro i j hij hj
  induction j with
  | zero => have : i = 0 := by omega
            subst this; exact Nat.le_refl _
  | succ j ih =>
    by_cases hc : i = j + 1
    · subst hc; exact Nat.le_refl _
    · rw [nbPosL_succ h hR (by omega)]
      exact Nat.le_trans (ih (by omega) (by omega)) (Nat.le_add_right _ _)

theorem nbPosL_end {rowMap : List Nat} {cpb nb R : Nat} (hR : 0 < R) :
    nbPosL rowMap cpb R (nb * R) = atN rowMap nb * (R * cpb) := by
  unfold nbPosL
  rw [Nat.mul_div_cancel _ hR, Nat.mul_mod_left]; simp

theorem nbPos_succ {A : Crs K} {nb mb : Nat} (h : A.WF nb mb) {R i : Nat} (hR : 0 < R)
    (hi : i < nb * R) : nbPos A R (i + 1) = nbPos A R i + rowLen A (i / R) * A.cpb :=
  nbPosL_succ h.rowMap_mono hR hi

theorem nbPos_end {A : Crs K} {nb mb : Nat} (h : A.WF nb mb) {R : Nat} (hR : 0 < R) :
    nbPos A R (nb * R) = A.cols.length * (R * A.cpb) := by
  rw [nbPos, nbPosL_end hR, h.rowMap_last]

theorem nbPos_mono {A : Crs K} {nb mb : Nat} (h : A.WF nb mb) {R : Nat} (hR : 0 < R) :
    ∀ i j, i ≤ j → j ≤ nb * R → nbPos A R i ≤ nbPos A R j := nbPosL_mono h.rowMap_mono hR

/-- Value written for scalar row `i`, stored block `k`, block column offset `off`. -/
def nbVal [Zero K] (A : Crs K) (stride offset R i k off : Nat) : K :=
  if stride = 1 then at0 A.vals (k * (A.rpb * A.cpb) + i % R * A.cpb + off)
  else if i % R = offset then at0 A.vals (k * A.cpb + off) else 0

/-- The result of `getDataAsNonBlock` position by position. -/
structure IsNonBlock [Zero K] (A : Crs K) (nb stride offset R : Nat)
    (rm c : List Nat) (v : List K) : Prop where
  rm_len : rm.length = nb * R + 1
  rm_val : ∀ i, i ≤ nb * R → atN rm i = nbPos A R i
  c_len : c.length = A.cols.length * (R * A.cpb)
  v_len : v.length = A.cols.length * (R * A.cpb)
  ent : ∀ i q off, i < nb * R → q < rowLen A (i / R) → off < A.cpb →
    atN c (nbPos A R i + (q * A.cpb + off)) = atN A.cols (atN A.rowMap (i / R) + q) * A.cpb + off ∧
    at0 v (nbPos A R i + (q * A.cpb + off)) =
      nbVal A stride offset R i (atN A.rowMap (i / R) + q) off

theorem rdSlack_some {v : List Nat} {g i : Nat} (h : i ≤ v.length) :
    rdSlack (some g) v i = Res.ok (if i < v.length then atN v i else g) := by
  unfold rdSlack
  by_cases hc : i < v.length
  · rw [if_pos hc, if_pos hc, rd_at0 hc]
  · rw [if_neg hc, if_pos (by omega), if_neg hc]

theorem rowMap_kernel_sat {A : Crs K} {nb mb : Nat} (h : A.WF nb mb) {R g : Nat} (hR : 0 < R)
    {o1 : List Nat} (ho : IsSchedule o1 (nb * R + 1)) :
    (parFor o1 (List.replicate (nb * R + 1) 0) (nonBlockRowMapStep (some g) A R)).Sat fun rm =>
      rm.length = nb * R + 1 ∧ ∀ i, i < nb * R + 1 → atN rm i = nbPos A R i := by
  refine parFor_posts ho (fun rm => rm.length = nb * R + 1) (fun i rm => atN rm i = nbPos A R i)
    (List.length_replicate) ?_
  intro i rm hi hl
  have hI : i / R ≤ nb := by
    rw [Nat.div_le_iff_le_mul_add_pred hR, Nat.mul_comm]; omega
  unfold nonBlockRowMapStep
  rw [rd_at0 (by rw [h.rowMap_length]; omega), rdSlack_some (by rw [h.rowMap_length]; omega)]
  simp only [Res.ok_bind]
  rw [wr_eq (by omega)]
  refine Res.Sat.ok ⟨by simpa using hl, ?_, ?_⟩
  · rw [atN, at0_set (by omega), if_pos rfl]
    unfold nbPos nbPosL
    by_cases hc : i / R + 1 < A.rowMap.length
    · rw [if_pos hc]
    · have hI' : i / R = nb := by rw [h.rowMap_length] at hc; omega
      have : i % R = 0 := by
        have e := Nat.div_add_mod i R
        rw [hI', Nat.mul_comm] at e; omega
      rw [this]; simp
  · intro j hj hne hp
    rw [atN, at0_set (by omega), if_neg hne]; exact hp

theorem rowLen_bound {A : Crs K} {nb mb : Nat} (h : A.WF nb mb) {I q : Nat} (hI : I < nb)
    (hq : q < rowLen A I) : atN A.rowMap I + q < A.cols.length := by
  have h1 := h.rowEnd_le hI
  have h2 := h.rowMap_succ hI
  omega

/-- reads of the value kernel stay in bounds -/
theorem nbVal_read [Zero K] {A : Crs K} {nb mb : Nat} (h : A.WF nb mb) {stride offset R i k off : Nat}
    (hcase : stride = 1 ∧ R = A.rpb ∨ stride ≠ 1 ∧ R = stride ∧ A.rpb = 1)
    (hR : 0 < R) (hk : k < A.cols.length) (hoff : off < A.cpb) :
    nonBlockValue A stride offset R i k off = Res.ok (nbVal A stride offset R i k off) := by
  unfold nbVal nonBlockValue
  rcases hcase with ⟨h1, h2⟩ | ⟨h1, h2, h3⟩
  · rw [if_pos h1, if_pos h1]
    apply rd_at0
    have hm : i % R < A.rpb := by rw [← h2]; exact Nat.mod_lt _ hR
    have := entry_lt h hk hm hoff
    rw [Nat.mul_comm k, Nat.mul_comm (i % R)]; exact this
  · rw [if_neg h1, if_neg h1]
    split
    · apply rd_at0
      have := entry_lt h hk (r := 0) (by omega) hoff
      rw [h3] at this
      rw [Nat.mul_comm k]; simpa using this
    · rfl

theorem entry_kernel_row_sat [Zero K] {A : Crs K} {nb mb : Nat} (h : A.WF nb mb)
    {stride offset R : Nat} (hR : 0 < R)
    (hcase : stride = 1 ∧ R = A.rpb ∨ stride ≠ 1 ∧ R = stride ∧ A.rpb = 1)
    {rm : List Nat} (hrl : rm.length = nb * R + 1)
    (hrm : ∀ i, i < nb * R + 1 → atN rm i = nbPos A R i) {i : Nat} (hi : i < nb * R)
    (st : List Nat × List K) (h1 : st.1.length = A.cols.length * (R * A.cpb))
    (h2 : st.2.length = A.cols.length * (R * A.cpb)) :
    (nonBlockEntryStep A stride offset R rm i st).Sat fun st' =>
      st'.1.length = st.1.length ∧ st'.2.length = st.2.length ∧
      (∀ q off, q < rowLen A (i / R) → off < A.cpb →
        atN st'.1 (nbPos A R i + (q * A.cpb + off)) =
          atN A.cols (atN A.rowMap (i / R) + q) * A.cpb + off ∧
        at0 st'.2 (nbPos A R i + (q * A.cpb + off)) =
          nbVal A stride offset R i (atN A.rowMap (i / R) + q) off) ∧
      (∀ e, (e < nbPos A R i ∨ nbPos A R (i + 1) ≤ e) →
        atN st'.1 e = atN st.1 e ∧ at0 st'.2 e = at0 st.2 e) := by
  have hI := div_lt_of_lt hi
  have hcp := h.cpb_pos
  have hend : nbPos A R (i + 1) ≤ A.cols.length * (R * A.cpb) := by
    rw [← nbPos_end h hR]; exact nbPos_mono h hR _ _ (by omega) (Nat.le_refl _)
  rw [nbPos_succ h hR hi] at hend
  have hs := h.rowMap_succ hI
  unfold nonBlockEntryStep
  rw [h.rd_start hI, h.rd_end hI]
  simp only [Res.ok_bind]
  rw [rd_at0 (by omega)]
  simp only [Res.ok_bind]
  have hrmi : at0 rm i = nbPos A R i := hrm i (by omega)
  rw [hrmi]
  set P := nbPos A R i with hP
  set L := atN A.rowMap (i / R) with hL
  -- contents up to scalar entry count t
  set Good : Nat → List Nat × List K → Prop := fun t s =>
    s.1.length = st.1.length ∧ s.2.length = st.2.length ∧
    (∀ q off, q * A.cpb + off < t → off < A.cpb →
      atN s.1 (P + (q * A.cpb + off)) = atN A.cols (L + q) * A.cpb + off ∧
      at0 s.2 (P + (q * A.cpb + off)) = nbVal A stride offset R i (L + q) off) ∧
    (∀ e, (e < P ∨ P + t ≤ e) → atN s.1 e = atN st.1 e ∧ at0 s.2 e = at0 st.2 e) with hGood
  refine Res.Sat.bind (P := fun s => s.1 = P + (rowLen A (i / R)) * A.cpb ∧
    Good (rowLen A (i / R) * A.cpb) s.2) ?_ ?_
  · refine (forRange_inv (fun k s => s.1 = P + (k - L) * A.cpb ∧ Good ((k - L) * A.cpb) s.2)
      (by omega) ?_ ?_).mono ?_
    · refine ⟨by simp, rfl, rfl, ?_, fun _ _ => ⟨rfl, rfl⟩⟩
      intro q off hlt; simp at hlt
    · rintro k s1 hk1 hk2 ⟨hp1, hg1⟩
      obtain ⟨q, rfl⟩ := Nat.exists_eq_add_of_le hk1
      have hq : q < rowLen A (i / R) := by omega
      have hk : L + q < A.cols.length := rowLen_bound h hI hq
      rw [Nat.add_sub_cancel_left] at hp1 hg1
      have hqs : L + q + 1 - L = q + 1 := by omega
      rw [hqs]
      refine (forRange_inv (fun off s => s.1 = P + (q * A.cpb + off) ∧ Good (q * A.cpb + off) s.2)
        (Nat.zero_le _) ⟨by simpa using hp1, by simpa using hg1⟩ ?_).mono ?_
      · rintro off ⟨p2, s2⟩ - hoff ⟨hp2, hl1, hl2, hent, hout⟩
        simp only at hp2 hl1 hl2 hent hout
        subst hp2
        rw [rd_at0 hk]
        simp only [Res.ok_bind]
        rw [nbVal_read h hcase hR hk hoff]
        simp only [Res.ok_bind]
        have hb : (q * A.cpb + off) < rowLen A (i / R) * A.cpb := by
          rw [Nat.mul_comm q]; exact block_lt hoff hq
        have hw1 : P + (q * A.cpb + off) < s2.1.length := by omega
        have hw2 : P + (q * A.cpb + off) < s2.2.length := by omega
        rw [wr_eq hw1, ]
        simp only [Res.ok_bind]
        rw [wr_eq hw2]
        refine Res.Sat.ok ⟨by simp only; omega, by simpa using hl1, by simpa using hl2, ?_, ?_⟩
        · intro q' off' hlt hoff'
          simp only
          rw [atN, at0_set hw1, at0_set hw2]
          by_cases hc : q' * A.cpb + off' = q * A.cpb + off
          · have hqq : q' = q := by
              have e1 := div_block (q := q') hoff'
              have e2 := div_block (q := q) hoff
              rw [Nat.mul_comm] at e1 e2
              rw [hc, e2] at e1; exact e1.symm
            subst hqq
            have : off' = off := by omega
            subst this
            simp
          · rw [if_neg (by omega), if_neg (by omega)]
            exact hent q' off' (by omega) hoff'
        · intro e he
          simp only
          rw [atN, at0_set hw1, at0_set hw2, if_neg (by omega), if_neg (by omega)]
          exact hout e (by omega)
      · rintro ⟨p2, s2⟩ ⟨hp2, hg2⟩
        have : q * A.cpb + A.cpb = (q + 1) * A.cpb := by ring
        rw [this] at hp2 hg2
        exact ⟨hp2, hg2⟩
    · rintro s ⟨ha, hb⟩
      have : atN A.rowMap (i / R + 1) - L = rowLen A (i / R) := rfl
      rw [this] at ha hb
      exact ⟨ha, hb⟩
  · rintro ⟨p, s⟩ ⟨-, hl1, hl2, hent, hout⟩
    simp only at hl1 hl2 hent hout
    refine Res.Sat.ok ⟨hl1, hl2, ?_, ?_⟩
    · intro q off hq hoff
      refine hent q off ?_ hoff
      rw [Nat.mul_comm q]; exact block_lt hoff hq
    · intro e he
      rw [nbPos_succ h hR hi] at he
      exact hout e he

theorem getDataAsNonBlock_sat [Zero K] {A : Crs K} {nb mb : Nat} (h : A.WF nb mb)
    {stride offset R g : Nat}
    (hcase : stride = 1 ∧ R = A.rpb ∨ stride ≠ 1 ∧ 0 < stride ∧ R = stride ∧ A.rpb = 1)
    {o1 o2 : List Nat} (ho1 : IsSchedule o1 (nb * R + 1)) (ho2 : IsSchedule o2 (nb * R)) :
    (getDataAsNonBlock o1 o2 (some g) A stride offset).Sat fun out =>
      IsNonBlock A nb stride offset R out.1 out.2.1 out.2.2 := by
  have hR : 0 < R := by
    rcases hcase with ⟨-, h2⟩ | ⟨-, h2, h3, -⟩
    · rw [h2]; exact h.rpb_pos
    · omega
  have hcase' : stride = 1 ∧ R = A.rpb ∨ stride ≠ 1 ∧ R = stride ∧ A.rpb = 1 := by
    rcases hcase with h1 | ⟨h1, -, h2⟩
    · exact Or.inl h1
    · exact Or.inr ⟨h1, h2⟩
  unfold getDataAsNonBlock
  simp only [Crs.numRows, h.numRows_eq, Res.ok_bind]
  have hRe : (if stride = 1 then A.rpb else stride) = R := by
    rcases hcase' with ⟨h1, h2⟩ | ⟨h1, h2, -⟩
    · rw [if_pos h1, h2]
    · rw [if_neg h1, h2]
  have hn : nb * A.rpb * stride = nb * R := by
    rcases hcase' with ⟨h1, h2⟩ | ⟨h1, h2, h3⟩
    · rw [h1, h2]; simp
    · rw [h2, h3]; simp
  have hsz : A.cols.length * (A.rpb * A.cpb) * stride = A.cols.length * (R * A.cpb) := by
    rcases hcase' with ⟨h1, h2⟩ | ⟨h1, h2, h3⟩
    · rw [h1, h2]; simp
    · rw [h2, h3]; ring
  rw [hRe, if_neg (by omega), hn, hsz]
  refine Res.Sat.bind (rowMap_kernel_sat h hR ho1) ?_
  rintro rm ⟨hrl, hrm⟩
  refine Res.Sat.bind (parFor_posts ho2
    (fun st => st.1.length = A.cols.length * (R * A.cpb) ∧ st.2.length = A.cols.length * (R * A.cpb))
    (fun i st => ∀ q off, q < rowLen A (i / R) → off < A.cpb →
        atN st.1 (nbPos A R i + (q * A.cpb + off)) =
          atN A.cols (atN A.rowMap (i / R) + q) * A.cpb + off ∧
        at0 st.2 (nbPos A R i + (q * A.cpb + off)) =
          nbVal A stride offset R i (atN A.rowMap (i / R) + q) off) ⟨by simp, by simp⟩ ?_) ?_
  · rintro i st hi ⟨h1, h2⟩
    refine (entry_kernel_row_sat h hR hcase' hrl hrm hi st h1 h2).mono ?_
    rintro st' ⟨k1, k2, k3, k4⟩
    refine ⟨⟨k1.trans h1, k2.trans h2⟩, k3, ?_⟩
    intro j hj hne hpost q off hq hoff
    have hb : (q * A.cpb + off) < rowLen A (j / R) * A.cpb := by
      rw [Nat.mul_comm q]; exact block_lt hoff hq
    have hsucc := nbPos_succ h hR hj
    have hout : nbPos A R j + (q * A.cpb + off) < nbPos A R i ∨
        nbPos A R (i + 1) ≤ nbPos A R j + (q * A.cpb + off) := by
      rcases Nat.lt_or_gt_of_ne hne with hlt | hgt
      · left
        have := nbPos_mono h hR (j + 1) i (by omega) (by omega)
        omega
      · right
        have := nbPos_mono h hR (i + 1) j (by omega) (by omega)
        omega
    rw [(k4 _ hout).1, (k4 _ hout).2]
    exact hpost q off hq hoff
  · rintro st ⟨⟨h1, h2⟩, hent⟩
    refine Res.Sat.ok ⟨hrl, fun i hi => hrm i (by omega), h1, h2, ?_⟩
    intro i q off hi hq hoff
    exact hent i hi q off hq hoff

theorem sum_Ico_shift [AddCommMonoid K] (f : Nat → K) (a n : Nat) :
    ∑ k ∈ Ico a (a + n), f k = ∑ q ∈ range n, f (a + q) := by
  rw [Finset.sum_Ico_eq_sum_range]; simp

/-- Dense content of the scalar arrays. -/
theorem isNonBlock_dense [AddCommMonoid K] {A : Crs K} {nb mb stride offset R : Nat} (h : A.WF nb mb)
    (hR : 0 < R) {rm c : List Nat} {v : List K} (hn : IsNonBlock A nb stride offset R rm c v)
    {i j : Nat} (hi : i < nb * R) :
    denseOf rm (c, v) i j = ∑ q ∈ range (rowLen A (i / R)),
      if atN A.cols (atN A.rowMap (i / R) + q) = j / A.cpb then
        nbVal A stride offset R i (atN A.rowMap (i / R) + q) (j % A.cpb) else 0 := by
  have hcp := h.cpb_pos
  unfold denseOf
  rw [hn.rm_val i (by omega), hn.rm_val (i + 1) (by omega), nbPos_succ h hR hi, sum_Ico_shift,
    sum_range_blocks]
  apply sum_congr rfl
  intro q hq
  have hq := mem_range.1 hq
  have hjm : j % A.cpb < A.cpb := Nat.mod_lt _ hcp
  rw [sum_eq_single (j % A.cpb)]
  · obtain ⟨e1, e2⟩ := hn.ent i q (j % A.cpb) hi hq hjm
    simp only [e1, e2]
    have : (atN A.cols (atN A.rowMap (i / R) + q) * A.cpb + j % A.cpb = j) ↔
        atN A.cols (atN A.rowMap (i / R) + q) = j / A.cpb := by
      have e := Nat.div_add_mod j A.cpb
      rw [Nat.mul_comm] at e
      constructor
      · intro h1
        have : atN A.cols (atN A.rowMap (i / R) + q) * A.cpb = j / A.cpb * A.cpb := by omega
        exact Nat.eq_of_mul_eq_mul_right hcp this
      · intro h1; rw [h1]; exact e
    simp only [this]
  · intro off hoff hne
    obtain ⟨e1, e2⟩ := hn.ent i q off hi hq (mem_range.1 hoff)
    simp only [e1]
    rw [if_neg]
    intro h1
    apply hne
    rw [← h1, Nat.mul_comm, mod_block (mem_range.1 hoff)]
  · intro h1; exact absurd (mem_range.2 hjm) h1

theorem isNonBlock_rowMapOk [Zero K] {A : Crs K} {nb mb stride offset R : Nat} (h : A.WF nb mb)
    (hR : 0 < R) {rm c : List Nat} {v : List K} (hn : IsNonBlock A nb stride offset R rm c v) :
    RowMapOk rm (nb * R) (A.cols.length * (R * A.cpb)) where
  length := hn.rm_len
  mono := by
    intro i hi
    rw [hn.rm_val i (by omega), hn.rm_val (i + 1) (by omega)]
    exact nbPos_mono h hR _ _ (by omega) (by omega)
  last := by rw [hn.rm_val _ (Nat.le_refl _), nbPos_end h hR]

end Plato
