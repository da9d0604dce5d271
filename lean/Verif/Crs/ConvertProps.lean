import Verif.Crs.ConvertBack
import Verif.Crs.Props

/-!
# C02: conversion between block and scalar storage
-/

namespace Plato
open Finset
variable {K : Type}

/-- The scalar columns of block column `c`. -/
def expandCol (cpb c : Nat) : List Nat := (List.range cpb).map (c * cpb + ·)

/-- Scalar CRS arrays that can be stored in `rpb x cpb` blocks: the rows of each node row have
the same set of full blocks (without repetition), in any order. -/
structure BlockPattern (nb mb rpb cpb : Nat) (rm c : List Nat) : Prop where
  rm_len : rm.length = nb * rpb + 1
  rm_zero : atN rm 0 = 0
  rm_last : atN rm (nb * rpb) = c.length
  rows : ∀ I, I < nb → ∃ bc : List Nat, bc.Nodup ∧ (∀ b ∈ bc, b < mb) ∧
    ∀ li, li < rpb →
      atN rm (I * rpb + li + 1) = atN rm (I * rpb + li) + bc.length * cpb ∧
      ((List.range' (atN rm (I * rpb + li)) (bc.length * cpb)).map (atN c)).Perm
        (bc.flatMap (expandCol cpb))

theorem flatMap_expand_get (cpb : Nat) : ∀ (bc : List Nat) (q off : Nat) (hq : q < bc.length),
    off < cpb → (bc.flatMap (expandCol cpb))[q * cpb + off]? = some (bc[q] * cpb + off) := by
  intro bc
  induction bc with
  | nil => intro q off hq; simp at hq
  | cons b bc ih =>
    intro q off hq hoff
    rw [List.flatMap_cons]
    cases q with
    | zero =>
      rw [List.getElem?_append_left (by simp [expandCol]; omega)]
      simp [expandCol, hoff]
    | succ q =>
      have hl : (expandCol cpb b).length = cpb := by simp [expandCol]
      rw [List.getElem?_append_right (by rw [hl, Nat.succ_mul]; omega), hl]
      have : (q + 1) * cpb + off - cpb = q * cpb + off := by rw [Nat.succ_mul]; omega
      rw [this, ih q off (by simpa using hq) hoff]
      simp

theorem flatMap_expand_sorted (cpb : Nat) {bc : List Nat} (h : bc.Pairwise (· < ·)) :
    (bc.flatMap (expandCol cpb)).Pairwise (· ≤ ·) := by
  rw [List.pairwise_flatMap]
  refine ⟨?_, ?_⟩
  · intro a _
    unfold expandCol
    rw [List.pairwise_map]
    exact List.Pairwise.imp (fun h => by omega) List.pairwise_lt_range
  · refine h.imp ?_
    intro a b hab x hx y hy
    simp only [expandCol, List.mem_map, List.mem_range] at hx hy
    obtain ⟨r, hr, rfl⟩ := hx
    obtain ⟨s, hs, rfl⟩ := hy
    have : (a + 1) * cpb ≤ b * cpb := Nat.mul_le_mul_right _ hab
    rw [Nat.succ_mul] at this; omega

/-- Sorting a scalar row made of full distinct blocks gives the blocks in ascending order. -/
theorem sorted_cols_eq (cpb : Nat) {bc cols : List Nat} (hnd : bc.Nodup)
    (hp : cols.Perm (bc.flatMap (expandCol cpb))) (hs : cols.Pairwise (· ≤ ·)) :
    cols = (bc.insertionSort (· ≤ ·)).flatMap (expandCol cpb) := by
  have hsp : (bc.insertionSort (· ≤ ·)).Perm bc := List.perm_insertionSort _ _
  have hlt : (bc.insertionSort (· ≤ ·)).Pairwise (· < ·) := by
    have h1 : (bc.insertionSort (· ≤ ·)).Pairwise (· ≤ ·) := List.pairwise_insertionSort _ _
    have h2 : (bc.insertionSort (· ≤ ·)).Nodup := (hsp.nodup_iff).2 hnd
    exact (h1.and h2).imp fun ⟨a, b⟩ => Nat.lt_of_le_of_ne a b
  refine List.Perm.eq_of_pairwise ?_ hs (flatMap_expand_sorted cpb hlt) ?_
  · intro a b _ _ h1 h2; exact Nat.le_antisymm h1 h2
  · exact hp.trans (hsp.symm.flatMap_right _)

theorem rowPairs_fst [Zero K] (st : List Nat × List K) (lo hi : Nat) :
    (rowPairs st lo hi).map Prod.fst = (List.range' lo (hi - lo)).map (atN st.1) := by
  simp [rowPairs, List.map_map, Function.comp_def]

theorem dense_eq_nb [AddCommMonoid K] {B : Crs K} {nb mb : Nat} (h : B.WF nb mb) {i j : Nat}
    (hi : i < nb * B.rpb) :
    B.dense i j = ∑ q ∈ range (rowLen B (i / B.rpb)),
      if atN B.cols (atN B.rowMap (i / B.rpb) + q) = j / B.cpb then
        nbVal B 1 0 B.rpb i (atN B.rowMap (i / B.rpb) + q) (j % B.cpb) else 0 := by
  unfold Crs.dense
  rw [h.rowMap_succ (div_lt_of_lt hi), sum_Ico_shift]
  apply sum_congr rfl
  intro q _
  unfold nbVal
  rw [if_pos rfl]
  have : B.rpb * B.cpb * (atN B.rowMap (i / B.rpb) + q) + B.cpb * (i % B.rpb) + j % B.cpb =
    (atN B.rowMap (i / B.rpb) + q) * (B.rpb * B.cpb) + i % B.rpb * B.cpb + j % B.cpb := by ring
  rw [this]

/-- C02, reading.  For every well formed block matrix the scalar data returned by
`getDataAsNonBlock` (stride 1) denote the same dense matrix, whatever value `g` is found in the
word behind the row map. -/
theorem C02_getDataAsNonBlock_partial [AddCommMonoid K] {A : Crs K} {nb mb : Nat} (h : A.WF nb mb)
    (g : Nat) {o1 o2 : List Nat} (ho1 : IsSchedule o1 (nb * A.rpb + 1))
    (ho2 : IsSchedule o2 (nb * A.rpb)) :
    (getDataAsNonBlock o1 o2 (some g) A 1 0).Sat fun out =>
      RowMapOk out.1 (nb * A.rpb) out.2.1.length ∧ out.2.1.length = out.2.2.length ∧
      ∀ i j, i < nb * A.rpb → denseOf out.1 (out.2.1, out.2.2) i j = A.dense i j := by
  refine (getDataAsNonBlock_sat (offset := 0) h (Or.inl ⟨rfl, rfl⟩) ho1 ho2).mono ?_
  intro out hn
  refine ⟨?_, ?_, ?_⟩
  · have := isNonBlock_rowMapOk h h.rpb_pos hn
    rwa [hn.c_len]
  · rw [hn.c_len, hn.v_len]
  · intro i j hi
    rw [isNonBlock_dense h h.rpb_pos hn hi, dense_eq_nb h hi]

/-- C02, reading a one-row sub-block matrix with `aRowStride = stride > 1`: row `i` of the full
matrix is row `i / stride` of the given one when `i % stride = offset` and zero otherwise. -/
theorem C02_getDataAsNonBlock_stride_partial [AddCommMonoid K] {A : Crs K} {nb mb : Nat} (h : A.WF nb mb)
    (hr : A.rpb = 1) {stride : Nat} (offset : Nat) (hs : 1 < stride)
    (g : Nat) {o1 o2 : List Nat} (ho1 : IsSchedule o1 (nb * stride + 1))
    (ho2 : IsSchedule o2 (nb * stride)) :
    (getDataAsNonBlock o1 o2 (some g) A stride offset).Sat fun out =>
      RowMapOk out.1 (nb * stride) out.2.1.length ∧ out.2.1.length = out.2.2.length ∧
      ∀ i j, i < nb * stride → denseOf out.1 (out.2.1, out.2.2) i j =
        if i % stride = offset then A.dense (i / stride) j else 0 := by
  refine (getDataAsNonBlock_sat (offset := offset) h
    (Or.inr ⟨by omega, by omega, rfl, hr⟩) ho1 ho2).mono ?_
  intro out hn
  have hR : 0 < stride := by omega
  have hs1 : stride ≠ 1 := by omega
  refine ⟨?_, ?_, ?_⟩
  · have := isNonBlock_rowMapOk h hR hn
    rwa [hn.c_len]
  · rw [hn.c_len, hn.v_len]
  · intro i j hi
    have hI := div_lt_of_lt hi
    rw [isNonBlock_dense h hR hn hi]
    have hd : i / stride / A.rpb = i / stride := by rw [hr, Nat.div_one]
    by_cases hc : i % stride = offset
    · rw [if_pos hc, dense_eq_nb h (by rw [hr, Nat.mul_one]; exact hI), hd]
      apply sum_congr rfl
      intro q _
      simp [nbVal, hs1, hc, hr, Nat.mod_one]
    · rw [if_neg hc]
      apply sum_eq_zero
      intro q _
      simp [nbVal, hs1, hc]

/-- C02, defect.  `getDataAsNonBlock` always reads one entry behind the row map
(/repo/src/PlatoMathHelpers.hpp:213, iteration `tMatrixRowIndex = tNumMatrixRows`): with bounds
checking the call is undefined behaviour for every well formed matrix and every schedule. -/
theorem C02_getDataAsNonBlock_reads_out_of_bounds [Zero K] {A : Crs K} {nb mb : Nat}
    (h : A.WF nb mb) {o1 o2 : List Nat} (ho1 : IsSchedule o1 (nb * A.rpb + 1)) :
    getDataAsNonBlock o1 o2 none A 1 0 = Res.ub := by
  have hr := h.rpb_pos
  have step : ∀ (is : List Nat) (rm : List Nat), (∀ i ∈ is, i < nb * A.rpb + 1) →
      nb * A.rpb ∈ is → rm.length = nb * A.rpb + 1 →
      parFor is rm (nonBlockRowMapStep none A A.rpb) = Res.ub := by
    intro is
    induction is with
    | nil => intro rm _ h; simp at h
    | cons i is ih =>
      intro rm hlt hmem hl
      unfold parFor
      have hi : i < nb * A.rpb + 1 := hlt i (by simp)
      by_cases hc : i = nb * A.rpb
      · subst hc
        unfold nonBlockRowMapStep
        rw [Nat.mul_div_cancel _ hr, rd_at0 (by rw [h.rowMap_length]; omega)]
        simp [rdSlack, h.rowMap_length]
      · have hI : i / A.rpb < nb := div_lt_of_lt (by omega)
        have hstep : ∃ x, nonBlockRowMapStep none A A.rpb i rm = Res.ok (rm.set i x) := by
          unfold nonBlockRowMapStep
          rw [rd_at0 (by rw [h.rowMap_length]; omega)]
          simp only [Res.ok_bind, rdSlack, h.rowMap_length]
          rw [if_pos (by omega), rd_at0 (by rw [h.rowMap_length]; omega)]
          simp only [Res.ok_bind]
          rw [wr_eq (by omega)]
          exact ⟨_, rfl⟩
        obtain ⟨x, hx⟩ := hstep
        rw [hx, Res.ok_bind]
        apply ih
        · exact fun j hj => hlt j (by simp [hj])
        rotate_left
        · rw [List.length_set]; exact hl
        rcases List.mem_cons.1 hmem with h1 | h1
        · exact absurd h1.symm hc
        · exact h1
  unfold getDataAsNonBlock
  simp only [Crs.numRows, h.numRows_eq, Res.ok_bind, if_true, Nat.mul_one]
  rw [if_neg (by omega), step o1 _ ?_ ?_ (by simp)]
  · rfl
  · intro i hi; exact List.mem_range.1 (ho1.mem_iff.1 hi)
  · exact ho1.mem_iff.2 (List.mem_range.2 (by omega))

/-- C02, writing.  For every scalar data with a block pattern (columns in any order) the block
matrix written by `setDataFromNonBlock` denotes the same dense matrix, is well formed, and has
ascending columns in every row. -/
theorem C02_setDataFromNonBlock [AddCommMonoid K] {nb mb : Nat} (M : Crs K) {rm c : List Nat}
    {v : List K} (hr : 0 < M.rpb) (hc : 0 < M.cpb) (hb : BlockPattern nb mb M.rpb M.cpb rm c)
    (hv : v.length = c.length) (hMn : M.numRows? = some (nb * M.rpb))
    (hMm : M.numCols? = some (mb * M.cpb)) {o0 o1 o2 : List Nat}
    (ho0 : IsSchedule o0 (nb * M.rpb)) (ho1 : IsSchedule o1 (nb * M.rpb + 1))
    (ho2 : IsSchedule o2 (nb * M.rpb)) :
    (setDataFromNonBlock o0 o1 o2 M rm c v).Sat fun B =>
      B.WF nb mb ∧ B.rpb = M.rpb ∧ B.cpb = M.cpb ∧
      (∀ i j, i < nb * M.rpb → B.dense i j = denseOf rm (c, v) i j) ∧
      (∀ I k k', I < nb → atN B.rowMap I ≤ k → k < k' → k' < atN B.rowMap (I + 1) →
        atN B.cols k < atN B.cols k') := by
  set rpb := M.rpb with hrpb
  set cpb := M.cpb with hcpb
  -- block rows
  obtain ⟨bc, hbc⟩ : ∃ bc : Nat → List Nat, ∀ I, I < nb → (bc I).Nodup ∧ (∀ b ∈ bc I, b < mb) ∧
      ∀ li, li < rpb →
        atN rm (I * rpb + li + 1) = atN rm (I * rpb + li) + (bc I).length * cpb ∧
        ((List.range' (atN rm (I * rpb + li)) ((bc I).length * cpb)).map (atN c)).Perm
          ((bc I).flatMap (expandCol cpb)) := by
    classical
    refine ⟨fun I => if h : I < nb then (hb.rows I h).choose else [], ?_⟩
    intro I hI
    simp only [hI, dif_pos]
    exact (hb.rows I hI).choose_spec
  set RM : List Nat := (List.range (nb + 1)).map fun I => ∑ x ∈ range I, (bc x).length with hRMdef
  have hRMv : ∀ I, I ≤ nb → atN RM I = ∑ x ∈ range I, (bc x).length := by
    intro I hI
    rw [hRMdef, atN, at0_map_range _ _ _ (by omega)]
  have hRMl : RM.length = nb + 1 := by simp [hRMdef]
  have hz : atN RM 0 = 0 := by rw [hRMv 0 (by omega)]; simp
  have hlen : ∀ I, I < nb → rowLenL RM I = (bc I).length := by
    intro I hI
    unfold rowLenL
    rw [hRMv I (by omega), hRMv (I + 1) (by omega), sum_range_succ]; omega
  have hmono : ∀ i, i < nb → atN RM i ≤ atN RM (i + 1) := by
    intro i hi
    rw [hRMv i (by omega), hRMv (i + 1) (by omega), sum_range_succ]; omega
  have hstep : ∀ i, i < nb * rpb → atN rm (i + 1) = atN rm i + (bc (i / rpb)).length * cpb ∧
      ((List.range' (atN rm i) ((bc (i / rpb)).length * cpb)).map (atN c)).Perm
          ((bc (i / rpb)).flatMap (expandCol cpb)) := by
    intro i hi
    have hI := div_lt_of_lt hi
    have := (hbc _ hI).2.2 (i % rpb) (Nat.mod_lt _ hr)
    have e : i / rpb * rpb + i % rpb = i := by rw [Nat.mul_comm]; exact Nat.div_add_mod i rpb
    rwa [e] at this
  have hrm : ∀ i, i ≤ nb * rpb → atN rm i = nbPosL RM cpb rpb i := by
    intro i hi
    induction i with
    | zero => rw [hb.rm_zero]; unfold nbPosL; simp [hz]
    | succ i ih =>
      rw [(hstep i (by omega)).1, ih (by omega), nbPosL_succ hmono hr (by omega),
        hlen _ (div_lt_of_lt (by omega))]
  have hclen : c.length = atN RM nb * (rpb * cpb) := by
    rw [← hb.rm_last, hrm _ (Nat.le_refl _), nbPosL_end hr]
  have hok : RowMapOk rm (nb * rpb) c.length :=
    ⟨hb.rm_len, fun i hi => by rw [(hstep i hi).1]; omega, by rw [hb.rm_last]⟩
  unfold setDataFromNonBlock
  obtain ⟨st, hst, ⟨hl1, hl2, hrows⟩, hdense⟩ : ∃ st, sortColumnEntries o0 rm (c, v) = Res.ok st ∧
      (st.1.length = c.length ∧ st.2.length = c.length ∧
      ∀ row, row < nb * rpb →
        ((rowPairs st (atN rm row) (atN rm (row + 1))).map Prod.fst).Pairwise (· ≤ ·) ∧
        (rowPairs st (atN rm row) (atN rm (row + 1))).Perm
          (rowPairs (c, v) (atN rm row) (atN rm (row + 1)))) ∧
      ∀ i j, i < nb * rpb → denseOf rm st i j = denseOf rm (c, v) i j := by
    obtain ⟨st, h1, h2⟩ := C03_sort hok (c, v) rfl hv ho0
    obtain ⟨st', h1', h2'⟩ := C03_sort_dense hok (c, v) rfl hv ho0
    rw [h1] at h1'
    cases h1'
    exact ⟨st, h1, h2, h2'⟩
  rw [hst]
  have hnr : M.numRows = Res.ok (nb * rpb) := by simp [Crs.numRows, hMn]
  have hbs : 0 < rpb * cpb := Nat.mul_pos hr hc
  simp only [Res.ok_bind, hnr]
  rw [if_neg (show ¬ (M.rpb * M.cpb = 0) from hbs.ne')]
  -- sorted columns
  have hcols : ∀ i, i < nb * rpb →
      (List.range' (atN rm i) ((bc (i / rpb)).length * cpb)).map (atN st.1) =
        ((bc (i / rpb)).insertionSort (· ≤ ·)).flatMap (expandCol cpb) := by
    intro i hi
    obtain ⟨hs, hp⟩ := hrows i hi
    obtain ⟨e1, e2⟩ := hstep i hi
    have hd : atN rm (i + 1) - atN rm i = (bc (i / rpb)).length * cpb := by omega
    have hp' := hp.map Prod.fst
    rw [rowPairs_fst, rowPairs_fst, hd] at hp'
    rw [rowPairs_fst, hd] at hs
    exact sorted_cols_eq cpb (hbc _ (div_lt_of_lt hi)).1 (hp'.trans e2) hs
  set C : Nat → Nat → Nat := fun I q => atN ((bc I).insertionSort (· ≤ ·)) q with hCdef
  have hsl : ∀ I, ((bc I).insertionSort (· ≤ ·)).length = (bc I).length :=
    fun I => List.length_insertionSort _ _
  have hC : HasBlocks nb rpb cpb RM st.1 C := by
    intro i q off hi hq hoff
    rw [hlen _ (div_lt_of_lt hi)] at hq
    have hb' : q * cpb + off < (bc (i / rpb)).length * cpb := by
      rw [Nat.mul_comm q]; exact block_lt hoff hq
    have e := congrArg (fun l => l[q * cpb + off]?) (hcols i hi)
    rw [flatMap_expand_get cpb _ q off (by rw [hsl]; exact hq) hoff] at e
    rw [List.getElem?_map, List.getElem?_range' hb'] at e
    simp only [Option.map_some, Option.some.injEq, Nat.one_mul] at e
    rw [← hrm i (by omega), e]
    show _ = at0 ((bc (i / rpb)).insertionSort (· ≤ ·)) q * cpb + off
    rw [at0_eq (by rw [hsl]; exact hq)]
  have hCb : ∀ I q, I < nb → q < rowLenL RM I → C I q < mb := by
    intro I q hI hq
    rw [hlen I hI] at hq
    show at0 ((bc I).insertionSort (· ≤ ·)) q < mb
    rw [at0_eq (by rw [hsl]; exact hq)]
    exact (hbc I hI).2.1 _ ((List.mem_insertionSort _).1 (List.getElem_mem _))
  refine (setKernels_isNonBlock hr hc hRMl hz hmono hb.rm_len hrm (hl1.trans hclen)
    (hl2.trans hclen) hC hCb M hrpb.symm hcpb.symm hMn hMm ho1 ho2).mono ?_
  rintro B ⟨hwf, hBr, hBc, hBm, hn, hBcols⟩
  refine ⟨hwf, hBr, hBc, ?_, ?_⟩
  · intro i j hi
    rw [← hdense i j hi]
    have h1 := isNonBlock_dense hwf hr hn (j := j) hi
    have h2 := dense_eq_nb hwf (j := j) (by rw [hBr]; exact hi)
    rw [hBr] at h2
    rw [h2]; exact h1.symm
  · intro I k k' hI hk hkk hk'
    rw [hBm] at hk hk'
    have hs := rowMapL_succ hmono hI
    rw [hlen I hI] at hs
    obtain ⟨q, rfl⟩ := Nat.exists_eq_add_of_le hk
    obtain ⟨q', rfl⟩ := Nat.exists_eq_add_of_le (Nat.le_trans hk (Nat.le_of_lt hkk))
    rw [hBcols I q hI (by rw [hlen I hI]; omega), hBcols I q' hI (by rw [hlen I hI]; omega)]
    have hsp : ((bc I).insertionSort (· ≤ ·)).Perm (bc I) := List.perm_insertionSort _ _
    have hlt : ((bc I).insertionSort (· ≤ ·)).Pairwise (· < ·) := by
      have h1 : ((bc I).insertionSort (· ≤ ·)).Pairwise (· ≤ ·) := List.pairwise_insertionSort _ _
      have h2 : ((bc I).insertionSort (· ≤ ·)).Nodup := (hsp.nodup_iff).2 (hbc I hI).1
      exact (h1.and h2).imp fun ⟨a, b⟩ => Nat.lt_of_le_of_ne a b
    have hq' : q' < ((bc I).insertionSort (· ≤ ·)).length := by rw [hsl]; omega
    show at0 ((bc I).insertionSort (· ≤ ·)) q < at0 ((bc I).insertionSort (· ≤ ·)) q'
    rw [at0_eq (by omega), at0_eq hq']
    exact List.pairwise_iff_getElem.1 hlt q q' (by omega) hq' (by omega)

/-- The scalar data of a block matrix with distinct columns in each row have a block pattern. -/
theorem isNonBlock_pattern [Zero K] {A : Crs K} {nb mb : Nat} (h : A.WF nb mb) {rm c : List Nat}
    {v : List K} (hn : IsNonBlock A nb 1 0 A.rpb rm c v)
    (hd : ∀ I k k', I < nb → atN A.rowMap I ≤ k → k < k' → k' < atN A.rowMap (I + 1) →
      atN A.cols k ≠ atN A.cols k') : BlockPattern nb mb A.rpb A.cpb rm c := by
  have hr := h.rpb_pos
  refine ⟨hn.rm_len, ?_, ?_, ?_⟩
  · rw [hn.rm_val 0 (Nat.zero_le _)]; unfold nbPos nbPosL; simp [h.rowMap_zero]
  · rw [hn.rm_val _ (Nat.le_refl _), nbPos_end h hr, hn.c_len]
  · intro I hI
    have hs := h.rowMap_succ hI
    have hle := h.rowEnd_le hI
    refine ⟨(List.range (rowLen A I)).map fun q => atN A.cols (atN A.rowMap I + q), ?_, ?_, ?_⟩
    · rw [List.nodup_iff_pairwise_ne, List.pairwise_map]
      refine List.Pairwise.imp_of_mem ?_ (List.pairwise_lt_range (n := rowLen A I))
      intro a b ha hb hab
      rw [List.mem_range] at ha hb
      exact hd I _ _ hI (by omega) (by omega) (by omega)
    · intro b hb
      simp only [List.mem_map, List.mem_range] at hb
      obtain ⟨q, hq, rfl⟩ := hb
      exact h.cols_lt _ (by omega)
    · intro li hli
      have hi : I * A.rpb + li < nb * A.rpb := by rw [Nat.mul_comm I]; exact block_lt hli hI
      have hdiv : (I * A.rpb + li) / A.rpb = I := by rw [Nat.mul_comm I]; exact div_block hli
      have hlen : ((List.range (rowLen A I)).map fun q => atN A.cols (atN A.rowMap I + q)).length
        = rowLen A I := by simp
      rw [hlen]
      refine ⟨?_, ?_⟩
      · rw [hn.rm_val _ (by omega), hn.rm_val _ (by omega), nbPos_succ h hr hi, hdiv]
      · apply List.Perm.of_eq
        rw [hn.rm_val _ (by omega)]
        have hcp := h.cpb_pos
        apply List.ext_getElem?
        intro e
        by_cases he : e < rowLen A I * A.cpb
        · have hq : e / A.cpb < rowLen A I := div_lt_of_lt he
          have hoff : e % A.cpb < A.cpb := Nat.mod_lt _ hcp
          have hee : e = e / A.cpb * A.cpb + e % A.cpb := by
            rw [Nat.mul_comm]; exact (Nat.div_add_mod e A.cpb).symm
          have e1 := flatMap_expand_get A.cpb
            ((List.range (rowLen A I)).map fun q => atN A.cols (atN A.rowMap I + q))
            (e / A.cpb) (e % A.cpb) (by simpa using hq) hoff
          rw [← hee] at e1
          rw [e1, List.getElem?_map, List.getElem?_range' he]
          simp only [Option.map_some, Option.some.injEq, Nat.one_mul, List.getElem_map,
            List.getElem_range]
          have := (hn.ent (I * A.rpb + li) (e / A.cpb) (e % A.cpb) hi (by rw [hdiv]; exact hq) hoff).1
          rw [← hee, hdiv] at this
          exact this
        · have l1 : ((List.range' (nbPos A A.rpb (I * A.rpb + li)) (rowLen A I * A.cpb)).map
              (atN c)).length = rowLen A I * A.cpb := by simp
          have l2 : (((List.range (rowLen A I)).map fun q =>
              atN A.cols (atN A.rowMap I + q)).flatMap (expandCol A.cpb)).length
              = rowLen A I * A.cpb := by
            simp [expandCol, Function.comp_def]
          rw [List.getElem?_eq_none (by omega), List.getElem?_eq_none (by omega)]

/-- C02, round trip.  Reading a block matrix (distinct columns per row, any order) as scalar data
and writing it back gives a block matrix with the same dense content.  Partial: the read of the
row map behind its end must be harmless, see `C02_getDataAsNonBlock_reads_out_of_bounds`. -/
theorem C02_round_trip_partial [AddCommMonoid K] {A : Crs K} {nb mb : Nat} (h : A.WF nb mb)
    (hd : ∀ I k k', I < nb → atN A.rowMap I ≤ k → k < k' → k' < atN A.rowMap (I + 1) →
      atN A.cols k ≠ atN A.cols k') (g : Nat) {o1 o2 p0 p1 p2 : List Nat}
    (ho1 : IsSchedule o1 (nb * A.rpb + 1)) (ho2 : IsSchedule o2 (nb * A.rpb))
    (hp0 : IsSchedule p0 (nb * A.rpb)) (hp1 : IsSchedule p1 (nb * A.rpb + 1))
    (hp2 : IsSchedule p2 (nb * A.rpb)) :
    (do
      let out ← getDataAsNonBlock o1 o2 (some g) A 1 0
      setDataFromNonBlock p0 p1 p2 A out.1 out.2.1 out.2.2).Sat fun B =>
      B.WF nb mb ∧ B.rpb = A.rpb ∧ B.cpb = A.cpb ∧
      ∀ i j, i < nb * A.rpb → B.dense i j = A.dense i j := by
  refine Res.Sat.bind (getDataAsNonBlock_sat (offset := 0) h (Or.inl ⟨rfl, rfl⟩) ho1 ho2) ?_
  rintro ⟨rm, c, v⟩ hn
  have hpat := isNonBlock_pattern h hn hd
  refine (C02_setDataFromNonBlock A h.rpb_pos h.cpb_pos hpat (hn.v_len.trans hn.c_len.symm)
    h.numRows_eq h.numCols_eq hp0 hp1 hp2).mono ?_
  rintro B ⟨hwf, hBr, hBc, hdense, -⟩
  refine ⟨hwf, hBr, hBc, ?_⟩
  intro i j hi
  rw [hdense i j hi, isNonBlock_dense h h.rpb_pos hn hi, dense_eq_nb h hi]

/-- C02, round trip with ascending columns: every array is restored exactly. -/
theorem C02_round_trip_exact_partial [AddCommMonoid K] {A : Crs K} {nb mb : Nat} (h : A.WF nb mb)
    (hd : ∀ I k k', I < nb → atN A.rowMap I ≤ k → k < k' → k' < atN A.rowMap (I + 1) →
      atN A.cols k < atN A.cols k') (g : Nat) {o1 o2 p0 p1 p2 : List Nat}
    (ho1 : IsSchedule o1 (nb * A.rpb + 1)) (ho2 : IsSchedule o2 (nb * A.rpb))
    (hp0 : IsSchedule p0 (nb * A.rpb)) (hp1 : IsSchedule p1 (nb * A.rpb + 1))
    (hp2 : IsSchedule p2 (nb * A.rpb)) :
    (do
      let out ← getDataAsNonBlock o1 o2 (some g) A 1 0
      setDataFromNonBlock p0 p1 p2 A out.1 out.2.1 out.2.2) = Res.ok A := by
  have hr := h.rpb_pos
  have hc := h.cpb_pos
  apply Res.Sat.eq_ok
  refine Res.Sat.bind (getDataAsNonBlock_sat (offset := 0) h (Or.inl ⟨rfl, rfl⟩) ho1 ho2) ?_
  rintro ⟨rm, c, v⟩ hn
  simp only at hn ⊢
  have hok := isNonBlock_rowMapOk h hr hn
  unfold setDataFromNonBlock
  -- the sort changes nothing
  have hsort : sortColumnEntries p0 rm (c, v) = Res.ok (c, v) := by
    obtain ⟨st, hst, hl1, hl2, hrows⟩ := C03_sort hok (c, v) hn.c_len hn.v_len hp0
    rw [hst]
    congr 1
    have hpair : ∀ i, i < nb * A.rpb →
        rowPairs st (atN rm i) (atN rm (i + 1)) = rowPairs (c, v) (atN rm i) (atN rm (i + 1)) := by
      intro i hi
      obtain ⟨hs, hp⟩ := hrows i hi
      have hI := div_lt_of_lt hi
      have hsI := h.rowMap_succ hI
      have hlt : ((rowPairs (c, v) (atN rm i) (atN rm (i + 1))).map Prod.fst).Pairwise (· < ·) := by
        rw [rowPairs_fst, List.pairwise_map]
        refine List.Pairwise.imp_of_mem ?_ (List.pairwise_lt_range' (s := atN rm i)
          (n := atN rm (i + 1) - atN rm i))
        intro a b ha hb hab
        rw [List.mem_range'_1] at ha hb
        rw [hn.rm_val i (by omega), hn.rm_val (i + 1) (by omega), nbPos_succ h hr hi] at ha hb
        obtain ⟨t, rfl⟩ := Nat.exists_eq_add_of_le ha.1
        obtain ⟨t', rfl⟩ := Nat.exists_eq_add_of_le hb.1
        have ht : t < rowLen A (i / A.rpb) * A.cpb := by omega
        have ht' : t' < rowLen A (i / A.rpb) * A.cpb := by omega
        have e1 := (hn.ent i (t / A.cpb) (t % A.cpb) hi (div_lt_of_lt ht) (Nat.mod_lt _ hc)).1
        have e2 := (hn.ent i (t' / A.cpb) (t' % A.cpb) hi (div_lt_of_lt ht') (Nat.mod_lt _ hc)).1
        have d1 := Nat.div_add_mod t A.cpb
        have d2 := Nat.div_add_mod t' A.cpb
        rw [Nat.mul_comm (t / A.cpb), d1] at e1
        rw [Nat.mul_comm (t' / A.cpb), d2] at e2
        simp only
        rw [e1, e2]
        have htt : t / A.cpb ≤ t' / A.cpb := Nat.div_le_div_right (by omega)
        rcases Nat.lt_or_eq_of_le htt with hlt | heq
        · have := hd (i / A.rpb) (atN A.rowMap (i / A.rpb) + t / A.cpb)
            (atN A.rowMap (i / A.rpb) + t' / A.cpb) hI (Nat.le_add_right _ _)
            (Nat.add_lt_add_left hlt _)
            (by have := div_lt_of_lt ht'; omega)
          have h3 := Nat.mul_le_mul_right A.cpb this
          rw [Nat.succ_mul] at h3
          have := Nat.mod_lt t hc
          omega
        · rw [heq] at d1 ⊢; omega
      have hnd : ((rowPairs st (atN rm i) (atN rm (i + 1))).map Prod.fst).Pairwise (· < ·) := by
        have hp' := hp.map Prod.fst
        have hnd : ((rowPairs st (atN rm i) (atN rm (i + 1))).map Prod.fst).Nodup :=
          hp'.nodup_iff.2 (hlt.imp (fun h => Nat.ne_of_lt h))
        exact (hs.and hnd).imp fun ⟨a, b⟩ => Nat.lt_of_le_of_ne a b
      rw [List.pairwise_map] at hlt hnd
      refine List.Perm.eq_of_pairwise (le := fun p q => p.1 < q.1) ?_ hnd hlt hp
      intro a b _ _ h1 h2; omega
    -- every position lies in a row
    have hcov : ∀ e, e < c.length → ∃ i, i < nb * A.rpb ∧ atN rm i ≤ e ∧ e < atN rm (i + 1) := by
      intro e he
      have : ∀ m, m ≤ nb * A.rpb → e < atN rm m → ∃ i, i < m ∧ atN rm i ≤ e ∧ e < atN rm (i + 1) := by
        intro m hm hem
        induction m with
        | zero =>
          rw [hn.rm_val 0 (Nat.zero_le _)] at hem
          unfold nbPos nbPosL at hem
          simp [h.rowMap_zero] at hem
        | succ m ih =>
          by_cases hlt : e < atN rm m
          · obtain ⟨I, a, b⟩ := ih (by omega) hlt
            exact ⟨I, by omega, b⟩
          · exact ⟨m, by omega, by omega, hem⟩
      obtain ⟨i, a, b⟩ := this _ (Nat.le_refl _) (by
        rw [hn.rm_val _ (Nat.le_refl _), nbPos_end h hr, ← hn.c_len]; exact he)
      exact ⟨i, a, b⟩
    have hall : ∀ e, e < c.length → atN st.1 e = atN c e ∧ at0 st.2 e = at0 v e := by
      intro e he
      obtain ⟨i, hi, ha, hb⟩ := hcov e he
      have e1 := congrArg (fun l => l[e - atN rm i]?) (hpair i hi)
      unfold rowPairs at e1
      simp only at e1
      rw [List.getElem?_map, List.getElem?_map, List.getElem?_range' (by omega)] at e1
      simp only [Option.map_some, Option.some.injEq, Nat.one_mul, Prod.mk.injEq] at e1
      rwa [Nat.add_sub_cancel' ha] at e1
    obtain ⟨s1, s2⟩ := st
    congr 1
    · exact ext_at0 (hl1.trans hn.c_len.symm) fun e he =>
        (hall e (by simp only at hl1; rw [hn.c_len, ← hl1]; exact he)).1
    · exact ext_at0 (hl2.trans hn.v_len.symm) fun e he =>
        (hall e (by simp only at hl2; rw [hn.c_len, ← hl2]; exact he)).2
  rw [hsort]
  have hnr0 : A.numRows = Res.ok (nb * A.rpb) := by simp [Crs.numRows, h.numRows_eq]
  simp only [Res.ok_bind, hnr0]
  have hbs : 0 < A.rpb * A.cpb := Nat.mul_pos hr hc
  rw [if_neg (by omega)]
  refine (setKernels_isNonBlock (mb := mb) (C := fun I q => atN A.cols (atN A.rowMap I + q)) hr hc
    h.rowMap_length h.rowMap_zero h.rowMap_mono hn.rm_len hn.rm_val
    (by rw [hn.c_len, h.rowMap_last]) (by rw [hn.v_len, h.rowMap_last]) ?_ ?_ A rfl rfl
    h.numRows_eq h.numCols_eq hp1 hp2).mono ?_
  · intro i q off hi hq hoff
    exact (hn.ent i q off hi hq hoff).1
  · intro I q hI hq
    have := h.rowMap_succ hI
    have := h.rowEnd_le hI
    have hq' : q < rowLen A I := hq
    exact h.cols_lt _ (by omega)
  · rintro B ⟨hwf, hBr, hBc, hBm, hnB, hBcols⟩
    have hloc : ∀ k, k < A.cols.length → ∃ I, I < nb ∧ atN A.rowMap I ≤ k ∧ k < atN A.rowMap (I + 1) := by
      intro k hk
      have : ∀ m, m ≤ nb → k < atN A.rowMap m →
          ∃ I, I < m ∧ atN A.rowMap I ≤ k ∧ k < atN A.rowMap (I + 1) := by
        intro m hm hkm
        induction m with
        | zero => rw [h.rowMap_zero] at hkm; omega
        | succ m ih =>
          by_cases hlt : k < atN A.rowMap m
          · obtain ⟨I, a, b⟩ := ih (by omega) hlt
            exact ⟨I, by omega, b⟩
          · exact ⟨m, by omega, by omega, hkm⟩
      exact this nb (Nat.le_refl _) (by rw [h.rowMap_last]; exact hk)
    have hcl : B.cols.length = A.cols.length := by
      rw [← hwf.rowMap_last, hBm, h.rowMap_last]
    have hcols : B.cols = A.cols := by
      apply ext_at0 hcl
      intro k hk
      obtain ⟨I, hI, ha, hb⟩ := hloc k (by omega)
      have hs := h.rowMap_succ hI
      have hs' : rowLen A I = rowLenL A.rowMap I := rfl
      have := hBcols I (k - atN A.rowMap I) hI (by omega)
      rw [Nat.add_sub_cancel' ha] at this
      exact this
    have hvl : B.vals.length = A.vals.length := by
      rw [hwf.vals_length, h.vals_length, hcl, hBr, hBc]
    have hvals : B.vals = A.vals := by
      apply ext_at0 hvl
      intro e he
      rw [hvl, h.vals_length] at he
      have hk : e / (A.rpb * A.cpb) < A.cols.length := Nat.div_lt_of_lt_mul he
      set k := e / (A.rpb * A.cpb) with hkdef
      have hrem : e % (A.rpb * A.cpb) < A.rpb * A.cpb := Nat.mod_lt _ hbs
      set t := e % (A.rpb * A.cpb) with htdef
      have hli : t / A.cpb < A.rpb := Nat.div_lt_of_lt_mul (by rw [Nat.mul_comm]; exact hrem)
      have hoff : t % A.cpb < A.cpb := Nat.mod_lt _ hc
      have hee : e = k * (A.rpb * A.cpb) + t / A.cpb * A.cpb + t % A.cpb := by
        have e1 := Nat.div_add_mod e (A.rpb * A.cpb)
        have e2 := Nat.div_add_mod t A.cpb
        rw [Nat.mul_comm] at e1 e2
        rw [Nat.add_assoc, e2]; exact e1.symm
      obtain ⟨I, hI, ha, hb⟩ := hloc k hk
      have hs := h.rowMap_succ hI
      have hi : I * A.rpb + t / A.cpb < nb * A.rpb := by rw [Nat.mul_comm I]; exact block_lt hli hI
      have hdiv : (I * A.rpb + t / A.cpb) / A.rpb = I := by
        rw [Nat.mul_comm I]; exact div_block hli
      have hmod : (I * A.rpb + t / A.cpb) % A.rpb = t / A.cpb := by
        rw [Nat.mul_comm I]; exact mod_block hli
      have v1 := (hn.ent _ (k - atN A.rowMap I) (t % A.cpb) hi (by rw [hdiv]; omega) hoff).2
      have v2 := (hnB.ent _ (k - atN A.rowMap I) (t % A.cpb) hi
        (by rw [hdiv]; unfold rowLen; rw [hBm]
            have : rowLen A I = rowLenL A.rowMap I := rfl
            omega) (by rw [hBc]; exact hoff)).2
      unfold nbPos at v1 v2
      rw [hBm, hBc, v1] at v2
      unfold nbVal at v2
      rw [if_pos rfl, if_pos rfl, hdiv, hmod, Nat.add_sub_cancel' ha, hBr, hBc, ← hee] at v2
      exact v2.symm
    have hnr : B.numRows? = A.numRows? := by rw [hwf.numRows_eq, h.numRows_eq, hBr]
    have hnc : B.numCols? = A.numCols? := by rw [hwf.numCols_eq, h.numCols_eq, hBc]
    cases B; cases A
    simp only at hBr hBc hBm hcols hvals hnr hnc
    subst hBr hBc hBm hcols hvals hnr hnc
    rfl

/-- The hypotheses of the round trip are met by the concrete matrix of C01. -/
example : ∀ I k k', I < 2 → atN exampleCrs.rowMap I ≤ k → k < k' →
    k' < atN exampleCrs.rowMap (I + 1) → atN exampleCrs.cols k < atN exampleCrs.cols k' := by
  intro I k k' hI
  have : I = 0 ∨ I = 1 := by omega
  rcases this with rfl | rfl
  · intro _ h1 h2
    have h2' : k' < 2 := h2
    have : k = 0 ∧ k' = 1 := by omega
    obtain ⟨rfl, rfl⟩ := this
    decide
  · intro h0 h1 h2
    have h0' : 2 ≤ k := h0
    have h2' : k' < 3 := h2
    omega

end Plato
