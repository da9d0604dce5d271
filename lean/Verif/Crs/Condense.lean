import Verif.Crs.CondenseSpec
import Verif.Crs.RowSum

/-!
# C04: `Condense`
-/

namespace Plato
open Finset
variable {K : Type}

/-- The schedules of one product or difference are complete, with `n1`, `n2`, `n3` rows of the
first operand, second operand (after row expansion) and result. -/
structure OpEnv.Valid (e : OpEnv) (n1 n2 n3 : Nat) : Prop where
  a1 : IsSchedule e.a1 (n1 + 1)
  a2 : IsSchedule e.a2 n1
  b1 : IsSchedule e.b1 (n2 + 1)
  b2 : IsSchedule e.b2 n2
  s0 : IsSchedule e.s0 n3
  s1 : IsSchedule e.s1 (n3 + 1)
  s2 : IsSchedule e.s2 n3
  g1 : ∃ g, e.g1 = some g
  g2 : ∃ g, e.g2 = some g

/-- Block column `b` is stored in block row `I`. -/
def Crs.hasBlock (A : Crs K) (I b : Nat) : Prop :=
  ∃ q, q < rowLen A I ∧ atN A.cols (atN A.rowMap I + q) = b

theorem isNonBlock_OK [Zero K] {A : Crs K} {nb mb stride offset R : Nat} (h : A.WF nb mb)
    (hR : 0 < R) {d : Csr K} (hn : IsNonBlock A nb stride offset R d.1 d.2.1 d.2.2) :
    d.OK (nb * R) := by
  have h0 := isNonBlock_rowMapOk h hR hn
  refine ⟨hn.rm_len, ?_, h0.mono, ?_, hn.v_len.trans hn.c_len.symm⟩
  · rw [hn.rm_val 0 (Nat.zero_le _)]; unfold nbPos nbPosL; simp [h.rowMap_zero]
  · rw [hn.rm_val _ (Nat.le_refl _), nbPos_end h hR, hn.c_len]

theorem isNonBlock_rowCols [Zero K] {A : Crs K} {nb mb stride offset R : Nat} (h : A.WF nb mb)
    (hR : 0 < R) {d : Csr K} (hn : IsNonBlock A nb stride offset R d.1 d.2.1 d.2.2) {i : Nat}
    (hi : i < nb * R) (j : Nat) : j ∈ d.rowCols i ↔ A.hasBlock (i / R) (j / A.cpb) := by
  have hcp := h.cpb_pos
  unfold Csr.rowCols Crs.hasBlock
  rw [hn.rm_val i (by omega), hn.rm_val (i + 1) (by omega), nbPos_succ h hR hi,
    Nat.add_sub_cancel_left, List.mem_map]
  constructor
  · rintro ⟨k, hk, hkj⟩
    rw [List.mem_range'_1] at hk
    obtain ⟨t, rfl⟩ := Nat.exists_eq_add_of_le hk.1
    have ht : t < rowLen A (i / R) * A.cpb := by omega
    have e1 := (hn.ent i (t / A.cpb) (t % A.cpb) hi (div_lt_of_lt ht) (Nat.mod_lt _ hcp)).1
    have d1 := Nat.div_add_mod t A.cpb
    rw [Nat.mul_comm (t / A.cpb), d1, hkj] at e1
    refine ⟨t / A.cpb, div_lt_of_lt ht, ?_⟩
    rw [e1, Nat.mul_comm, div_block (Nat.mod_lt _ hcp)]
  · rintro ⟨q, hq, hqj⟩
    have hm : j % A.cpb < A.cpb := Nat.mod_lt _ hcp
    have e1 := (hn.ent i q (j % A.cpb) hi hq hm).1
    refine ⟨_, ?_, e1.trans ?_⟩
    · rw [List.mem_range'_1]
      have : q * A.cpb + j % A.cpb < rowLen A (i / R) * A.cpb := by
        rw [Nat.mul_comm q]; exact block_lt hm hq
      omega
    · rw [hqj, Nat.mul_comm]; exact Nat.div_add_mod j A.cpb

theorem hasBlock_lt {A : Crs K} {nb mb : Nat} (h : A.WF nb mb) {I b : Nat} (hI : I < nb)
    (hb : A.hasBlock I b) : b < mb := by
  obtain ⟨q, hq, rfl⟩ := hb
  have := h.rowMap_succ hI
  have := h.rowEnd_le hI
  exact h.cols_lt _ (by omega)

/-- Scalar data whose rows are unions of full blocks, the same in all rows of a node, have a
block pattern. -/
theorem pattern_of_blocks {nb mb rpb cpb : Nat} (hr : 0 < rpb) (hc : 0 < cpb) {d : Csr K}
    (hd : d.OK (nb * rpb)) (P : Nat → Nat → Prop)
    (hP : ∀ I b, I < nb → P I b → b < mb)
    (hrows : ∀ i, i < nb * rpb → (d.rowCols i).Nodup ∧
      ∀ j, j ∈ d.rowCols i ↔ P (i / rpb) (j / cpb)) :
    BlockPattern nb mb rpb cpb d.1 d.2.1 := by
  classical
  refine ⟨hd.rm_len, hd.rm_zero, hd.last, ?_⟩
  intro I hI
  refine ⟨(List.range mb).filter fun b => decide (P I b), List.nodup_range.filter _, ?_, ?_⟩
  · intro b hb
    exact List.mem_range.1 (List.mem_filter.1 hb).1
  · intro li hli
    have hi : I * rpb + li < nb * rpb := by rw [Nat.mul_comm I]; exact block_lt hli hI
    have hdiv : (I * rpb + li) / rpb = I := by rw [Nat.mul_comm I]; exact div_block hli
    obtain ⟨h1, h2⟩ := hrows _ hi
    rw [hdiv] at h2
    have hnd : (((List.range mb).filter fun b => decide (P I b)).flatMap (expandCol cpb)).Nodup := by
      rw [List.nodup_iff_pairwise_ne, List.pairwise_flatMap]
      refine ⟨?_, ?_⟩
      · intro a _
        unfold expandCol
        rw [List.pairwise_map]
        exact List.Pairwise.imp (fun h => by omega) List.pairwise_lt_range
      · refine (List.nodup_range.filter _).imp ?_
        intro a b hab x hx y hy
        simp only [expandCol, List.mem_map, List.mem_range] at hx hy
        obtain ⟨r, hr, rfl⟩ := hx
        obtain ⟨s, hs, rfl⟩ := hy
        intro he
        have e1 : (a * cpb + r) / cpb = a := by rw [Nat.mul_comm]; exact div_block hr
        have e2 : (b * cpb + s) / cpb = b := by rw [Nat.mul_comm]; exact div_block hs
        rw [he, e2] at e1
        exact hab e1.symm
    have hperm : (d.rowCols (I * rpb + li)).Perm
        (((List.range mb).filter fun b => decide (P I b)).flatMap (expandCol cpb)) := by
      rw [List.perm_ext_iff_of_nodup h1 hnd]
      intro j
      rw [h2]
      simp only [List.mem_flatMap, List.mem_filter, List.mem_range, decide_eq_true_eq, expandCol,
        List.mem_map]
      constructor
      · intro hp
        refine ⟨j / cpb, ⟨hP I _ hI hp, hp⟩, j % cpb, Nat.mod_lt _ hc, ?_⟩
        rw [Nat.mul_comm]; exact Nat.div_add_mod j cpb
      · rintro ⟨b, ⟨_, hp⟩, off, hoff, rfl⟩
        rw [Nat.mul_comm b, div_block hoff]; exact hp
    have hlen := hperm.length_eq
    have hl2 : (((List.range mb).filter fun b => decide (P I b)).flatMap (expandCol cpb)).length =
        ((List.range mb).filter fun b => decide (P I b)).length * cpb := by
      simp [expandCol, Function.comp_def]
    rw [hl2] at hlen
    have hl1 : (d.rowCols (I * rpb + li)).length =
        atN d.1 (I * rpb + li + 1) - atN d.1 (I * rpb + li) := by simp [Csr.rowCols]
    have hm := hd.mono _ hi
    refine ⟨by omega, ?_⟩
    rw [← hlen, hl1]
    exact hperm

section
variable [CommRing K]

/-- C04 (used by `Condense`): the block matrix product has the dense content of the product of
its operands, for every schedule and every kernel that meets its specification. -/
theorem C04_matrixMatrixMultiply_partial {spgemm : Nat → Nat → Nat → Csr K → Csr K → Res (Csr K)}
    (hg : SpgemmOK spgemm) {A B Out : Crs K} {na ma nb mb : Nat} (hA : A.WF na ma) (hB : B.WF nb mb)
    (hAB : ma * A.cpb = nb * B.rpb) (hor : Out.rpb = A.rpb) (hoc : Out.cpb = B.cpb)
    (hon : Out.numRows? = some (na * A.rpb)) (hom : Out.numCols? = some (mb * B.cpb))
    {e : OpEnv} (he : e.Valid (na * A.rpb) (nb * B.rpb) (na * A.rpb)) :
    (matrixMatrixMultiply spgemm e A B Out).Sat fun P =>
      P.WF na mb ∧ P.rpb = A.rpb ∧ P.cpb = B.cpb ∧
      ∀ i j, i < na * A.rpb → P.dense i j = ∑ l ∈ range (ma * A.cpb), A.dense i l * B.dense l j := by
  obtain ⟨g1, hg1⟩ := he.g1
  obtain ⟨g2, hg2⟩ := he.g2
  unfold matrixMatrixMultiply
  have e1 : A.numRows = Res.ok (na * A.rpb) := by simp [Crs.numRows, hA.numRows_eq]
  have e2 : A.numCols = Res.ok (ma * A.cpb) := by simp [Crs.numCols, hA.numCols_eq]
  have e3 : B.numRows = Res.ok (nb * B.rpb) := by simp [Crs.numRows, hB.numRows_eq]
  have e4 : B.numCols = Res.ok (mb * B.cpb) := by simp [Crs.numCols, hB.numCols_eq]
  have e5 : Out.numRows = Res.ok (na * A.rpb) := by simp [Crs.numRows, hon]
  have e6 : Out.numCols = Res.ok (mb * B.cpb) := by simp [Crs.numCols, hom]
  simp only [e1, e2, e3, e4, e5, e6, Res.ok_bind, hg1, hg2]
  rw [if_neg (by simpa using hAB.symm), if_neg (by simp), if_neg (by simp)]
  refine Res.Sat.bind (getDataAsNonBlock_sat (offset := 0) hA (Or.inl ⟨rfl, rfl⟩) he.a1 he.a2) ?_
  intro (d1 : Csr K) hd1
  refine Res.Sat.bind (getDataAsNonBlock_sat (offset := 0) hB (Or.inl ⟨rfl, rfl⟩) he.b1 he.b2) ?_
  intro (d2 : Csr K) hd2
  have hcols1 : ∀ i, i < na * A.rpb → ∀ l ∈ d1.rowCols i, l < nb * B.rpb := by
    intro i hi l hl
    rw [isNonBlock_rowCols hA hA.rpb_pos hd1 hi] at hl
    have := hasBlock_lt hA (div_lt_of_lt hi) hl
    rw [← hAB, Nat.mul_comm]
    have h3 := Nat.div_add_mod l A.cpb
    have h4 := Nat.mod_lt l hA.cpb_pos
    have h5 : A.cpb * (l / A.cpb + 1) ≤ A.cpb * ma := Nat.mul_le_mul_left _ this
    rw [Nat.mul_succ] at h5
    omega
  refine Res.Sat.bind (hg _ _ _ d1 d2 (isNonBlock_OK hA hA.rpb_pos hd1)
    (isNonBlock_OK hB hB.rpb_pos hd2) hcols1) ?_
  rintro out ⟨hok, hrows⟩
  have hpat : BlockPattern na mb Out.rpb Out.cpb out.1 out.2.1 := by
    rw [hor, hoc]
    refine pattern_of_blocks hA.rpb_pos hB.cpb_pos hok
      (fun I b => ∃ l, A.hasBlock I (l / A.cpb) ∧ l < nb * B.rpb ∧ B.hasBlock (l / B.rpb) b) ?_ ?_
    · rintro I b hI ⟨l, _, h2, h3⟩
      exact hasBlock_lt hB (div_lt_of_lt h2) h3
    · intro i hi
      obtain ⟨h1, h2, _⟩ := hrows i hi
      refine ⟨h1, ?_⟩
      intro j
      rw [h2]
      constructor
      · rintro ⟨l, hl, hj⟩
        have hlt := hcols1 i hi l hl
        rw [isNonBlock_rowCols hA hA.rpb_pos hd1 hi] at hl
        rw [isNonBlock_rowCols hB hB.rpb_pos hd2 hlt] at hj
        exact ⟨l, hl, hlt, hj⟩
      · rintro ⟨l, hl, hlt, hj⟩
        refine ⟨l, ?_, ?_⟩
        · rw [isNonBlock_rowCols hA hA.rpb_pos hd1 hi]; exact hl
        · rw [isNonBlock_rowCols hB hB.rpb_pos hd2 hlt]; exact hj
  have hs := C02_setDataFromNonBlock (nb := na) (mb := mb) Out (v := out.2.2)
    (by rw [hor]; exact hA.rpb_pos) (by rw [hoc]; exact hB.cpb_pos) hpat hok.vals
    (by rw [hor]; exact hon) (by rw [hoc]; exact hom) (o0 := e.s0) (o1 := e.s1) (o2 := e.s2)
    (by rw [hor]; exact he.s0) (by rw [hor]; exact he.s1) (by rw [hor]; exact he.s2)
  refine hs.mono ?_
  rintro P ⟨hwf, hr, hc, hden, -⟩
  refine ⟨hwf, hr.trans hor, hc.trans hoc, ?_⟩
  intro i j hi
  rw [hden i j (by rw [hor]; exact hi)]
  have h3 := (hrows i hi).2.2 j
  rw [Csr.dense] at h3
  rw [h3, hAB]
  apply sum_congr rfl
  intro l hl
  have hl := mem_range.1 hl
  unfold Csr.dense
  rw [isNonBlock_dense hA hA.rpb_pos hd1 hi, isNonBlock_dense hB hB.rpb_pos hd2 hl,
    dense_eq_nb hA hi, dense_eq_nb hB hl]

/-- C04 (used by `Condense`): the difference of block matrices; the second one has one row per
node, which goes to local row `offset` of the first. -/
theorem C04_matrixMinusMatrix_partial {spadd : Nat → Csr K → K → Csr K → K → Res (Csr K)}
    (hg : SpaddOK spadd) {A B : Crs K} {nb mb : Nat} (hA : A.WF nb mb) (hB : B.WF nb mb)
    (hBr : B.rpb = 1) (hBc : B.cpb = A.cpb) {offset : Nat} (hoff : offset < A.rpb)
    {e : OpEnv} (he : e.Valid (nb * A.rpb) (nb * A.rpb) (nb * A.rpb)) :
    (matrixMinusMatrix spadd e A B offset).Sat fun P =>
      P.WF nb mb ∧ P.rpb = A.rpb ∧ P.cpb = A.cpb ∧
      ∀ i j, i < nb * A.rpb → P.dense i j = A.dense i j -
        if i % A.rpb = offset then B.dense (i / A.rpb) j else 0 := by
  obtain ⟨g1, hg1⟩ := he.g1
  obtain ⟨g2, hg2⟩ := he.g2
  have hR := hA.rpb_pos
  unfold matrixMinusMatrix
  have e1 : A.numRows = Res.ok (nb * A.rpb) := by simp [Crs.numRows, hA.numRows_eq]
  have e2 : A.numCols = Res.ok (mb * A.cpb) := by simp [Crs.numCols, hA.numCols_eq]
  have e3 : B.numRows = Res.ok (nb * B.rpb) := by simp [Crs.numRows, hB.numRows_eq]
  have e4 : B.numCols = Res.ok (mb * B.cpb) := by simp [Crs.numCols, hB.numCols_eq]
  simp only [e1, e2, e3, e4, Res.ok_bind, hg1, hg2]
  rw [if_neg (by simp [hBc])]
  refine Res.Sat.bind (getDataAsNonBlock_sat (offset := 0) hA (Or.inl ⟨rfl, rfl⟩) he.a1 he.a2) ?_
  intro (d1 : Csr K) hd1
  have hcase : A.rpb = 1 ∧ A.rpb = B.rpb ∨ A.rpb ≠ 1 ∧ 0 < A.rpb ∧ A.rpb = A.rpb ∧ B.rpb = 1 := by
    by_cases hc : A.rpb = 1
    · exact Or.inl ⟨hc, hc.trans hBr.symm⟩
    · exact Or.inr ⟨hc, hR, rfl, hBr⟩
  refine Res.Sat.bind (getDataAsNonBlock_sat (offset := offset) hB hcase he.b1 he.b2) ?_
  intro (d2 : Csr K) hd2
  refine Res.Sat.bind (hg _ d1 1 d2 (-1) (isNonBlock_OK hA hR hd1) (isNonBlock_OK hB hR hd2)) ?_
  rintro out ⟨hok, hrows⟩
  have hpat : BlockPattern nb mb A.rpb A.cpb out.1 out.2.1 := by
    refine pattern_of_blocks hR hA.cpb_pos hok
      (fun I b => A.hasBlock I b ∨ B.hasBlock I b) ?_ ?_
    · rintro I b hI (h | h)
      · exact hasBlock_lt hA hI h
      · exact hasBlock_lt hB hI h
    · intro i hi
      obtain ⟨h1, h2, _⟩ := hrows i hi
      refine ⟨h1, ?_⟩
      intro j
      rw [h2, isNonBlock_rowCols hA hR hd1 hi, isNonBlock_rowCols hB hR hd2 hi, hBc]
  refine (C02_setDataFromNonBlock (nb := nb) (mb := mb) A (v := out.2.2)
    hR hA.cpb_pos hpat hok.vals hA.numRows_eq hA.numCols_eq he.s0 he.s1 he.s2).mono ?_
  rintro P ⟨hwf, hr, hc, hden, -⟩
  refine ⟨hwf, hr, hc, ?_⟩
  intro i j hi
  rw [hden i j hi]
  have h3 := (hrows i hi).2.2 j
  rw [Csr.dense] at h3
  rw [h3]
  unfold Csr.dense
  rw [isNonBlock_dense hA hR hd1 hi, isNonBlock_dense hB hR hd2 hi, dense_eq_nb hA hi, one_mul,
    neg_one_mul, sub_eq_add_neg]
  congr 2
  have hI : i / A.rpb < nb * B.rpb := by rw [hBr, Nat.mul_one]; exact div_lt_of_lt hi
  by_cases hc : A.rpb = 1
  · have h0 : offset = 0 := by omega
    rw [if_pos (by rw [hc, h0, Nat.mod_one]), dense_eq_nb hB hI, hBr, hc]
    simp only [Nat.div_one]
    apply sum_congr rfl
    intro q _
    simp [nbVal, hBr, Nat.mod_one]
  · by_cases hm : i % A.rpb = offset
    · rw [if_pos hm, dense_eq_nb hB hI, hBr, Nat.div_one]
      apply sum_congr rfl
      intro q _
      simp [nbVal, hc, hm, hBr, Nat.mod_one]
    · rw [if_neg hm]
      apply sum_eq_zero
      intro q _
      simp [nbVal, hc, hm]

end

/-- C04, `Condense`: the first matrix becomes `A - B . RowSum(C)^{-1} . D` (rows `offset` of every
node), for every schedule and every external kernel that meets its specification.  Partial: the
read of the row maps behind their end must be harmless (C02). -/
theorem C04_condense_partial [Field K]
    {spgemm : Nat → Nat → Nat → Csr K → Csr K → Res (Csr K)} (hg : SpgemmOK spgemm)
    {spadd : Nat → Csr K → K → Csr K → K → Res (Csr K)} (ha : SpaddOK spadd)
    {A B C D : Crs K} {nb mb kb nd md : Nat}
    (hA : A.WF nb mb) (hB : B.WF nb kb) (hC : C.WF nd md) (hD : D.WF nd mb)
    (hBr : B.rpb = 1) (hCD : C.rpb = D.rpb) (hBD : kb * B.cpb = nd * D.rpb) (hDA : D.cpb = A.cpb)
    {offset : Nat} (hoff : offset < A.rpb)
    (hne : ∀ l, l < nd * D.rpb → ∑ j ∈ range (md * C.cpb), C.dense l j ≠ 0)
    {o : List Nat} (ho : IsSchedule o nd) {e1 e2 : OpEnv}
    (he1 : e1.Valid (nb * B.rpb) (nd * D.rpb) (nb * B.rpb))
    (he2 : e2.Valid (nb * A.rpb) (nb * A.rpb) (nb * A.rpb)) :
    (condense spgemm spadd o e1 e2 A B C D offset).Sat fun out =>
      out.1.WF nb mb ∧ out.1.rpb = A.rpb ∧ out.1.cpb = A.cpb ∧
      (∀ i j, i < nb * A.rpb → out.1.dense i j = A.dense i j -
        if i % A.rpb = offset then ∑ l ∈ range (kb * B.cpb),
          B.dense (i / A.rpb) l * ((∑ j ∈ range (md * C.cpb), C.dense l j)⁻¹ * D.dense l j)
        else 0) ∧
      (∀ l j, l < nd * D.rpb →
        out.2.dense l j = (∑ j ∈ range (md * C.cpb), C.dense l j)⁻¹ * D.dense l j) := by
  unfold condense
  refine Res.Sat.bind (C04_rowSummedInverseMultiply hC hD hCD ho (by rw [hCD]; exact hne)) ?_
  rintro D' ⟨hD', -, -, hr, hc, hden⟩
  rw [hCD] at hden
  have hden' : ∀ l j, l < nd * D.rpb →
      D'.dense l j = (∑ j ∈ range (md * C.cpb), C.dense l j)⁻¹ * D.dense l j := by
    intro l j hl
    rw [← hden l j hl, ← mul_assoc, inv_mul_cancel₀ (hne l hl), one_mul]
  have e1' : B.numRows = Res.ok (nb * B.rpb) := by simp [Crs.numRows, hB.numRows_eq]
  have e2' : D'.numCols = Res.ok (mb * D'.cpb) := by simp [Crs.numCols, hD'.numCols_eq]
  simp only [e1', e2', Res.ok_bind]
  refine Res.Sat.bind (C04_matrixMatrixMultiply_partial
    (Out := ⟨[], [], [], some (nb * B.rpb), some (mb * D'.cpb), B.rpb, D'.cpb⟩)
    hg hB hD' (by rw [hr]; exact hBD) rfl rfl rfl rfl
    (by rw [hr]; exact he1)) ?_
  rintro P ⟨hP, hPr, hPc, hPd⟩
  refine Res.Sat.bind (C04_matrixMinusMatrix_partial ha hA hP (hPr.trans hBr)
    (hPc.trans (hc.trans hDA)) hoff he2) ?_
  rintro A' ⟨hA', h1, h2, h3⟩
  refine Res.Sat.ok ⟨hA', h1, h2, ?_, hden'⟩
  intro i j hi
  rw [h3 i j hi]
  congr 1
  split
  · rw [hPd _ _ (by rw [hBr, Nat.mul_one]; exact div_lt_of_lt hi)]
    apply sum_congr rfl
    intro l hl
    rw [hden' l j (by rw [← hBD]; exact mem_range.1 hl)]
  · rfl

end Plato
