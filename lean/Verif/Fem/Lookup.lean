import Verif.Crs.Lemmas
import Verif.Fem.AssemblyModel
import Verif.Fem.GraphScalar
import Verif.Crs.Condense

/-!
# C06: entry look-up
-/

namespace Plato
variable {K : Type}

/-- Node `a` of cell `cell`. -/
def cellNode (npc : Nat) (c2n : List Nat) (cell a : Nat) : Nat := atN c2n (cell * npc + a)

/-- Global degree of freedom number of local degree of freedom `l` of cell `cell`, with `d`
degrees of freedom per node. -/
def cellDof (npc d : Nat) (c2n : List Nat) (cell l : Nat) : Nat :=
  d * cellNode npc c2n cell (l / d) + l % d

/-- A connectivity table of `nc` cells with `npc` nodes each over `n` nodes. -/
structure Mesh (c2n : List Nat) (npc nc n : Nat) : Prop where
  length : c2n.length = nc * npc
  lt : ∀ k, k < c2n.length → atN c2n k < n

theorem Mesh.idx {c2n : List Nat} {npc nc n cell a : Nat} (h : Mesh c2n npc nc n)
    (hc : cell < nc) (ha : a < npc) : cell * npc + a < c2n.length := by
  rw [h.length, Nat.mul_comm cell]; exact block_lt ha hc

theorem Mesh.node_lt {c2n : List Nat} {npc nc n cell a : Nat} (h : Mesh c2n npc nc n)
    (hc : cell < nc) (ha : a < npc) : cellNode npc c2n cell a < n := h.lt _ (h.idx hc ha)

theorem Mesh.dof_lt {c2n : List Nat} {npc nc n cell l d : Nat} (h : Mesh c2n npc nc n)
    (hc : cell < nc) (hl : l < npc * d) : cellDof npc d c2n cell l < n * d := by
  have hd : 0 < d := Nat.pos_of_ne_zero (by rintro rfl; simp at hl)
  exact block_lt (Nat.mod_lt _ hd) (h.node_lt hc (div_lt_of_lt hl))

/-- The search loop: it returns the first position with the wanted column, or none if the range
has no such position. -/
theorem findCol_spec (cols : List Nat) (tgt : Nat) : ∀ (n lo : Nat), lo + n ≤ cols.length →
    (∃ q, q < n ∧ atN cols (lo + q) = tgt ∧ (∀ q', q' < q → atN cols (lo + q') ≠ tgt) ∧
      findCol cols tgt n lo = Res.ok (some (lo + q))) ∨
    ((∀ q, q < n → atN cols (lo + q) ≠ tgt) ∧ findCol cols tgt n lo = Res.ok none) := by
  intro n
  induction n with
  | zero => intro lo _; exact Or.inr ⟨by intro q hq; omega, rfl⟩
  | succ n ih =>
    intro lo hlo
    unfold findCol
    rw [rd_atN (by omega : lo < cols.length)]
    simp only [Res.ok_bind]
    by_cases h : atN cols lo = tgt
    · rw [if_pos h]
      exact Or.inl ⟨0, by omega, h, by intro q hq; omega, rfl⟩
    · rw [if_neg h]
      rcases ih (lo + 1) (by omega) with ⟨q, hq, h1, h2, h3⟩ | ⟨h1, h2⟩
      · refine Or.inl ⟨q + 1, by omega, by rw [← h1]; congr 1; omega, ?_, ?_⟩
        · intro q' hq'
          rcases Nat.eq_zero_or_pos q' with rfl | hp
          · exact h
          · have := h2 (q' - 1) (by omega)
            rwa [show lo + 1 + (q' - 1) = lo + q' by omega] at this
        · rw [h3]; congr 2; omega
      · refine Or.inr ⟨?_, h2⟩
        intro q hq
        rcases Nat.eq_zero_or_pos q with rfl | hp
        · exact h
        · have := h1 (q - 1) (by omega)
          rwa [show lo + 1 + (q - 1) = lo + q by omega] at this

/-- Position `p` of the value array holds the entry of block row `I`, block column `J`, local row
`r`, local column `c`. -/
def Crs.HoldsAt (A : Crs K) (p I r J c : Nat) : Prop :=
  ∃ k, atN A.rowMap I ≤ k ∧ k < atN A.rowMap (I + 1) ∧ atN A.cols k = J ∧
    p = A.rpb * A.cpb * k + A.cpb * r + c

theorem Crs.WF.row_le {A : Crs K} {nb mb I : Nat} (h : A.WF nb mb) (hI : I < nb) :
    atN A.rowMap I ≤ atN A.rowMap (I + 1) ∧ atN A.rowMap (I + 1) ≤ A.cols.length :=
  ⟨h.rowMap_mono I hI, by
    have hok : RowMapOk A.rowMap nb A.cols.length :=
      ⟨h.rowMap_length, h.rowMap_mono, Nat.le_of_eq h.rowMap_last⟩
    exact (hok.le (I + 1) nb (by omega) (Nat.le_refl _)).trans hok.last⟩

/-- **C06**, block look-up: coupled nodes give the position of the entry, uncoupled nodes give
`none` (-1). -/
theorem C06_blockEntryOrdinal {A : Crs K} {c2n : List Nat} {npc nc n di dj cell i j : Nat}
    (h : A.WF n n) (hdi : A.rpb = di) (hdj : A.cpb = dj) (hm : Mesh c2n npc nc n)
    (hc : cell < nc) (hi : i < npc * di) (hj : j < npc * dj) :
    let I := cellNode npc c2n cell (i / di)
    let J := cellNode npc c2n cell (j / dj)
    (A.hasBlock I J → ∃ p, blockEntryOrdinal npc di dj A c2n cell i j = Res.ok (some p) ∧
      p < A.vals.length ∧ A.HoldsAt p I (i % di) J (j % dj)) ∧
    (¬ A.hasBlock I J → blockEntryOrdinal npc di dj A c2n cell i j = Res.ok none) := by
  intro I J
  have ha := div_lt_of_lt hi
  have hb := div_lt_of_lt hj
  have hI : I < n := hm.node_lt hc ha
  obtain ⟨h1, h2⟩ := h.row_le hI
  have hrl := h.rowMap_length
  have e : blockEntryOrdinal npc di dj A c2n cell i j =
      (findCol A.cols J (atN A.rowMap (I + 1) - atN A.rowMap I) (atN A.rowMap I) >>= fun r =>
        pure (r.map fun e => e * di * dj + i % di * dj + j % dj)) := by
    unfold blockEntryOrdinal
    rw [rd_atN (hm.idx hc ha), rd_atN (hm.idx hc hb)]
    simp only [Res.ok_bind]
    show (rd A.rowMap I >>= fun lo => rd A.rowMap (I + 1) >>= fun hi =>
      findCol A.cols J (hi - lo) lo >>= _) = _
    rw [rd_atN (i := I) (by omega), rd_atN (i := I + 1) (by omega)]
    rfl
  rcases findCol_spec A.cols J (atN A.rowMap (I + 1) - atN A.rowMap I) (atN A.rowMap I) (by omega)
    with ⟨q, hq, h3, h4, h5⟩ | ⟨h3, h4⟩
  · refine ⟨fun _ => ⟨_, by rw [e, h5]; rfl, ?_, atN A.rowMap I + q, by omega, by omega, h3, ?_⟩,
      fun hn => absurd ⟨q, hq, h3⟩ hn⟩
    · rw [h.vals_length, hdi, hdj]
      have hr : i % di * dj + j % dj < di * dj := by
        have d1 := h.rpb_pos
        have d2 := h.cpb_pos
        rw [Nat.mul_comm (i % di)]
        exact block_lt (Nat.mod_lt _ (by omega)) (Nat.mod_lt _ (by omega))
      have := block_lt hr (show atN A.rowMap I + q < A.cols.length by omega)
      rw [Nat.mul_comm A.cols.length] at this
      show (atN A.rowMap I + q) * di * dj + i % di * dj + j % dj < _
      rw [Nat.mul_assoc (atN A.rowMap I + q), Nat.mul_comm (atN A.rowMap I + q)]
      omega
    · rw [hdi, hdj]; ring
  · refine ⟨fun ⟨q, hq, hqj⟩ => absurd hqj (h3 q hq), fun _ => ?_⟩
    rw [e, h4]; rfl

/-- **C06**, transposed block look-up: the position of the entry with the roles of `i` and `j`
exchanged. -/
theorem C06_blockTransposeEntryOrdinal {A : Crs K} {c2n : List Nat} {npc nc n d cell i j : Nat}
    (h : A.WF n n) (hdi : A.rpb = d) (hdj : A.cpb = d) (hm : Mesh c2n npc nc n)
    (hc : cell < nc) (hi : i < npc * d) (hj : j < npc * d) :
    let I := cellNode npc c2n cell (i / d)
    let J := cellNode npc c2n cell (j / d)
    (A.hasBlock J I → ∃ p, blockTransposeEntryOrdinal npc d A c2n cell i j = Res.ok (some p) ∧
      p < A.vals.length ∧ A.HoldsAt p J (j % d) I (i % d)) ∧
    (¬ A.hasBlock J I → blockTransposeEntryOrdinal npc d A c2n cell i j = Res.ok none) := by
  have hswap : blockTransposeEntryOrdinal npc d A c2n cell i j =
      blockEntryOrdinal npc d d A c2n cell j i := by
    unfold blockTransposeEntryOrdinal blockEntryOrdinal
    rw [rd_atN (hm.idx hc (div_lt_of_lt hi)), rd_atN (hm.idx hc (div_lt_of_lt hj))]
    rfl
  rw [hswap]
  exact C06_blockEntryOrdinal h hdi hdj hm hc hj hi

/-- **C06**, scalar look-up in a matrix with `d` scalar rows and columns per node. -/
theorem C06_matrixEntryOrdinal {A : Crs K} {c2n : List Nat} {npc nc n d cell i j : Nat}
    (hr : RowMapOk A.rowMap (n * d) A.cols.length) (hv : A.vals.length = A.cols.length)
    (hm : Mesh c2n npc nc n) (hc : cell < nc) (hi : i < npc * d) (hj : j < npc * d) :
    let I := cellDof npc d c2n cell i
    let J := cellDof npc d c2n cell j
    (J ∈ A.rowCols I → ∃ p, matrixEntryOrdinal npc d A c2n cell i j = Res.ok (some p) ∧
      p < A.vals.length ∧ atN A.rowMap I ≤ p ∧ p < atN A.rowMap (I + 1) ∧ atN A.cols p = J) ∧
    (J ∉ A.rowCols I → matrixEntryOrdinal npc d A c2n cell i j = Res.ok none) := by
  intro I J
  have ha := div_lt_of_lt hi
  have hb := div_lt_of_lt hj
  have hI : I < n * d := hm.dof_lt hc hi
  have h1 := hr.mono I hI
  have h2 : atN A.rowMap (I + 1) ≤ A.cols.length := (hr.le _ _ (by omega) (Nat.le_refl _)).trans hr.last
  have hrl := hr.length
  have e : matrixEntryOrdinal npc d A c2n cell i j =
      findCol A.cols J (atN A.rowMap (I + 1) - atN A.rowMap I) (atN A.rowMap I) := by
    unfold matrixEntryOrdinal
    rw [rd_atN (hm.idx hc ha), rd_atN (hm.idx hc hb)]
    simp only [Res.ok_bind]
    show (rd A.rowMap I >>= fun lo => rd A.rowMap (I + 1) >>= fun hi =>
      findCol A.cols J (hi - lo) lo) = _
    rw [rd_atN (i := I) (by omega), rd_atN (i := I + 1) (by omega)]
    rfl
  have hmem : J ∈ A.rowCols I ↔ ∃ q, q < atN A.rowMap (I + 1) - atN A.rowMap I ∧
      atN A.cols (atN A.rowMap I + q) = J := by
    unfold Crs.rowCols
    rw [List.mem_map]
    constructor
    · rintro ⟨k, hk, hkj⟩
      rw [List.mem_range'_1] at hk
      exact ⟨k - atN A.rowMap I, by omega, by rw [← hkj]; congr 1; omega⟩
    · rintro ⟨q, hq, hqj⟩
      exact ⟨_, by rw [List.mem_range'_1]; omega, hqj⟩
  rw [hmem]
  rcases findCol_spec A.cols J (atN A.rowMap (I + 1) - atN A.rowMap I) (atN A.rowMap I) (by omega)
    with ⟨q, hq, h3, h4, h5⟩ | ⟨h3, h4⟩
  · exact ⟨fun _ => ⟨_, by rw [e, h5], by omega, by omega, by omega, h3⟩,
      fun hn => absurd ⟨q, hq, h3⟩ hn⟩
  · refine ⟨fun ⟨q, hq, hqj⟩ => absurd hqj (h3 q hq), fun _ => ?_⟩
    rw [e, h4]

/-- A position of the entry list lies in one row only. -/
theorem row_unique {f : Nat → Nat} {n I I' k : Nat} (hmono : ∀ i, i < n → f i ≤ f (i + 1))
    (hI : I < n) (hI' : I' < n) (h1 : f I ≤ k) (h2 : k < f (I + 1)) (h3 : f I' ≤ k)
    (h4 : k < f (I' + 1)) : I = I' := by
  have hle : ∀ i j, i ≤ j → j ≤ n → f i ≤ f j := by
    intro i j hij hj
    induction j with
    | zero => have : i = 0 := by omega
              subst this; exact Nat.le_refl _
    | succ j ih =>
      rcases Nat.lt_or_ge i (j + 1) with hlt | hge
      · exact Nat.le_trans (ih (by omega) (by omega)) (hmono j (by omega))
      · have : i = j + 1 := by omega
        subst this; exact Nat.le_refl _
  rcases Nat.lt_trichotomy I I' with h | h | h
  · have := hle (I + 1) I' h (by omega); omega
  · exact h
  · have := hle (I' + 1) I h (by omega); omega

/-- **C06**, no aliasing: a position of the value array belongs to one (row node, local row, column
node, local column) tuple only. -/
theorem C06_no_alias {A : Crs K} {n p I r J c I' r' J' c' : Nat} (h : A.WF n n) (hI : I < n)
    (hI' : I' < n) (hr : r < A.rpb) (hr' : r' < A.rpb) (hc : c < A.cpb) (hc' : c' < A.cpb)
    (h1 : A.HoldsAt p I r J c) (h2 : A.HoldsAt p I' r' J' c') :
    I = I' ∧ r = r' ∧ J = J' ∧ c = c' := by
  obtain ⟨k, k1, k2, k3, k4⟩ := h1
  obtain ⟨l, l1, l2, l3, l4⟩ := h2
  have b1 : A.cpb * r + c < A.rpb * A.cpb := block_lt hc hr
  have b2 : A.cpb * r' + c' < A.rpb * A.cpb := block_lt hc' hr'
  have ek : k = l := by
    have e1 := div_block (q := k) b1
    have e2 := div_block (q := l) b2
    rw [← Nat.add_assoc, ← k4] at e1
    rw [← Nat.add_assoc, ← l4] at e2
    exact e1.symm.trans e2
  subst ek
  have ew : A.cpb * r + c = A.cpb * r' + c' := by omega
  have er : r = r' := by
    have e1 := div_block (q := r) hc
    rw [ew, div_block hc'] at e1
    exact e1.symm
  subst er
  exact ⟨row_unique h.rowMap_mono hI hI' k1 k2 l1 l2, rfl, k3.symm.trans l3, by omega⟩

/-- **C06**, no aliasing in a scalar matrix: the position determines row and column. -/
theorem C06_no_alias_scalar {A : Crs K} {n p I J I' J' : Nat}
    (hr : RowMapOk A.rowMap n A.cols.length) (hI : I < n) (hI' : I' < n)
    (h1 : atN A.rowMap I ≤ p ∧ p < atN A.rowMap (I + 1) ∧ atN A.cols p = J)
    (h2 : atN A.rowMap I' ≤ p ∧ p < atN A.rowMap (I' + 1) ∧ atN A.cols p = J') :
    I = I' ∧ J = J' :=
  ⟨row_unique hr.mono hI hI' h1.1 h1.2.1 h2.1 h2.2.1, h1.2.2.symm.trans h2.2.2⟩

/-- Two bar elements on three nodes: a mesh. -/
theorem C06_example_mesh : Mesh [0, 1, 1, 2] 2 2 3 := ⟨rfl, by decide⟩

/-- The graph of that mesh with two degrees of freedom per node. -/
def C06_exampleMatrix : Crs Int :=
  { rowMap := [0, 2, 5, 7], cols := [0, 1, 0, 1, 2, 1, 2], vals := List.replicate 28 0,
    numRows? := some 6, numCols? := some 6, rpb := 2, cpb := 2 }

theorem C06_example_wf : C06_exampleMatrix.WF 3 3 where
  rpb_pos := by decide
  cpb_pos := by decide
  rowMap_length := rfl
  rowMap_zero := rfl
  rowMap_mono := by decide
  rowMap_last := rfl
  cols_lt := by decide
  vals_length := rfl
  numRows_eq := rfl
  numCols_eq := rfl

example : blockEntryOrdinal 2 2 2 C06_exampleMatrix [0, 1, 1, 2] 1 1 2 = Res.ok (some 18) := by
  decide

example : blockEntryOrdinal 2 2 2 C06_exampleMatrix [0, 2, 1, 2] 0 1 2 = Res.ok none := by
  decide

end Plato
