import Verif.Fem.Scatter

/-!
# C07: Jacobian assembly under every order of the atomic adds
-/

namespace Plato
open Finset
variable {K : Type}

/-- Global cell of local cell `c`. -/
def gcell (dom : Option (List Nat)) (c : Nat) : Nat :=
  match dom with
  | some l => atN l c
  | none => c

/-- The domain has (at least) `nCells` cells, all of them cells of the mesh with `nc` cells. -/
def DomOk (dom : Option (List Nat)) (nCells nc : Nat) : Prop :=
  (∀ c, c < nCells → gcell dom c < nc) ∧ ∀ l, dom = some l → nCells ≤ l.length

theorem cellOf_eq {dom : Option (List Nat)} {nCells nc c : Nat} (h : DomOk dom nCells nc)
    (hc : c < nCells) : cellOf dom c = Res.ok (gcell dom c) := by
  cases dom with
  | none => rfl
  | some l => exact rd_atN (by have := h.2 l rfl; omega)

/-- All nodes of a cell are coupled in the block graph of the matrix. -/
def Coupled (A : Crs K) (npc : Nat) (c2n : List Nat) (nc : Nat) : Prop :=
  ∀ cell a b, cell < nc → a < npc → b < npc →
    A.hasBlock (cellNode npc c2n cell a) (cellNode npc c2n cell b)

theorem rd3_eq {w : View3 K} {i j k : Nat} (h : i < w.n0 ∧ j < w.n1 ∧ k < w.n2) :
    rd3 w i j k = Res.ok (w.data i j k) := if_pos h

theorem rd2_eq {w : View2 K} {i j : Nat} (h : i < w.n0 ∧ j < w.n1) :
    rd2 w i j = Res.ok (w.data i j) := if_pos h

/-- The list of updates `(pos c r s, val c r s)`. -/
def opsList (n R C : Nat) (pos : Nat → Nat → Nat → Nat) (val : Nat → Nat → Nat → K) :
    List (Nat × K) :=
  (List.range n).flatMap fun c => (List.range R).flatMap fun r =>
    (List.range C).flatMap fun s => [(pos c r s, val c r s)]

theorem opsList_length (n R C : Nat) (pos : Nat → Nat → Nat → Nat) (val : Nat → Nat → Nat → K) :
    (opsList n R C pos val).length = n * (R * C) := by
  unfold opsList
  refine length_flatMap_range _ _ _ (fun c _ => ?_)
  refine length_flatMap_range _ _ _ (fun r _ => ?_)
  rw [length_flatMap_range _ _ 1 (fun s _ => rfl), Nat.mul_one]

theorem opsList_sum [AddCommMonoid K] (n R C : Nat) (pos : Nat → Nat → Nat → Nat)
    (val : Nat → Nat → Nat → K) (g : Nat × K → K) :
    ((opsList n R C pos val).map g).sum =
      ∑ t ∈ range n ×ˢ range R ×ˢ range C, g (pos t.1 t.2.1 t.2.2, val t.1 t.2.1 t.2.2) := by
  unfold opsList
  rw [sum_map_flatMap_range, sum_product]
  refine sum_congr rfl fun c _ => ?_
  rw [sum_map_flatMap_range, sum_product]
  refine sum_congr rfl fun r _ => ?_
  rw [sum_map_flatMap_range]
  simp

theorem opsList_mem {n R C : Nat} {pos : Nat → Nat → Nat → Nat} {val : Nat → Nat → Nat → K}
    {op : Nat × K} (h : op ∈ opsList n R C pos val) :
    ∃ c r s, c < n ∧ r < R ∧ s < C ∧ op = (pos c r s, val c r s) := by
  unfold opsList at h
  simp only [List.mem_flatMap, List.mem_range, List.mem_singleton] at h
  obtain ⟨c, hc, r, hr, s, hs, rfl⟩ := h
  exact ⟨c, r, s, hc, hr, hs, rfl⟩

theorem jacobianOps_eq {lookup : Nat → Nat → Nat → Res (Option Nat)} {dom : Option (List Nat)}
    {nCells nc R C : Nat} {ws : View3 K} (pos : Nat → Nat → Nat → Nat)
    (hd : DomOk dom nCells nc)
    (hl : ∀ c r s, c < nCells → r < R → s < C →
      lookup (gcell dom c) r s = Res.ok (some (pos c r s)))
    (h0 : nCells ≤ ws.n0) (h1 : R ≤ ws.n1) (h2 : C ≤ ws.n2) :
    jacobianOps lookup dom nCells R C ws = Res.ok (opsList nCells R C pos ws.data) := by
  unfold jacobianOps opsList
  rw [forRange_append _ [] fun c hc acc => ?_]
  · rfl
  rw [cellOf_eq hd hc]
  simp only [Res.ok_bind]
  refine forRange_append _ acc fun r hr acc => ?_
  refine forRange_append _ acc fun s hs acc => ?_
  rw [hl c r s hc hr hs]
  simp only [Res.ok_bind, entryPos]
  rw [rd3_eq (by omega)]
  rfl

theorem transposeJacobianOps_eq {lookup : Nat → Nat → Nat → Res (Option Nat)}
    {dom : Option (List Nat)} {nCells nc R C : Nat} {ws : View3 K} (pos : Nat → Nat → Nat → Nat)
    (hd : DomOk dom nCells nc)
    (hl : ∀ c r s, c < nCells → r < R → s < C →
      lookup (gcell dom c) s r = Res.ok (some (pos c r s)))
    (h0 : nCells ≤ ws.n0) (h1 : R ≤ ws.n1) (h2 : C ≤ ws.n2) :
    transposeJacobianOps lookup dom nCells R C ws = Res.ok (opsList nCells R C pos ws.data) := by
  unfold transposeJacobianOps opsList
  rw [forRange_append _ [] fun c hc acc => ?_]
  · rfl
  rw [cellOf_eq hd hc]
  simp only [Res.ok_bind]
  refine forRange_append _ acc fun r hr acc => ?_
  refine forRange_append _ acc fun s hs acc => ?_
  rw [hl c r s hc hr hs]
  simp only [Res.ok_bind, entryPos]
  rw [rd3_eq (by omega)]
  rfl

/-- Effect of a complete list of updates on the dense matrix. -/
theorem scatter_dense [AddCommMonoid K] {A : Crs K} {n N R C : Nat} {order : List Nat}
    {pos : Nat → Nat → Nat → Nat} {val : Nat → Nat → Nat → K}
    (hmono : ∀ i, i < n → atN A.rowMap i ≤ atN A.rowMap (i + 1))
    (fI fr fJ fc : Nat → Nat → Nat → Nat)
    (hpos : ∀ c r s, c < N → r < R → s < C → pos c r s < A.vals.length ∧
      A.HoldsAt (pos c r s) (fI c r s) (fr c r s) (fJ c r s) (fc c r s) ∧ fI c r s < n ∧
      fr c r s < A.rpb ∧ fc c r s < A.cpb)
    (ho : IsSchedule order (N * (R * C))) :
    (runAtomics order (opsList N R C pos val) A.vals).Sat fun v => v.length = A.vals.length ∧
      ∀ i j, i < n * A.rpb → Crs.dense { A with vals := v } i j = A.dense i j +
        ∑ c ∈ range N, ∑ r ∈ range R, ∑ s ∈ range C,
          if A.rpb * fI c r s + fr c r s = i ∧ A.cpb * fJ c r s + fc c r s = j then val c r s
          else 0 := by
  refine (runAtomics_sat (by rwa [opsList_length]) ?_).mono ?_
  · intro op hop
    obtain ⟨c, r, s, hc, hr, hs, rfl⟩ := opsList_mem hop
    exact (hpos c r s hc hr hs).1
  · rintro v ⟨hl, hv⟩
    refine ⟨hl, ?_⟩
    intro i j hi
    rw [dense_update hmono (range N ×ˢ range R ×ˢ range C) (fun t => pos t.1 t.2.1 t.2.2)
      (fun t => val t.1 t.2.1 t.2.2) (fun t => fI t.1 t.2.1 t.2.2) (fun t => fr t.1 t.2.1 t.2.2)
      (fun t => fJ t.1 t.2.1 t.2.2) (fun t => fc t.1 t.2.1 t.2.2) ?_ ?_ hi]
    · rw [sum_product]
      congr 1
      refine sum_congr rfl fun c _ => ?_
      rw [sum_product]
    · rintro ⟨c, r, s⟩ ht
      simp only [mem_product, mem_range] at ht
      exact (hpos c r s ht.1 ht.2.1 ht.2.2).2
    · intro q
      rw [hv q, opsList_sum]

/-- Sum of the element matrices `J c` scattered to the global entry `(i,j)`. -/
def scattered [AddCommMonoid K] (npc dr ds : Nat) (c2n : List Nat) (dom : Option (List Nat))
    (nCells : Nat) (J : Nat → Nat → Nat → K) (i j : Nat) : K :=
  ∑ c ∈ range nCells, ∑ r ∈ range (npc * dr), ∑ s ∈ range (npc * ds),
    if cellDof npc dr c2n (gcell dom c) r = i ∧ cellDof npc ds c2n (gcell dom c) s = j then J c r s
    else 0

theorem wf_vals {A : Crs K} {n m : Nat} {v : List K} (h : A.WF n m)
    (hl : v.length = A.vals.length) : Crs.WF { A with vals := v } n m where
  rpb_pos := h.rpb_pos
  cpb_pos := h.cpb_pos
  rowMap_length := h.rowMap_length
  rowMap_zero := h.rowMap_zero
  rowMap_mono := h.rowMap_mono
  rowMap_last := h.rowMap_last
  cols_lt := h.cols_lt
  vals_length := hl.trans h.vals_length
  numRows_eq := h.numRows_eq
  numCols_eq := h.numCols_eq

/-- **C07**: assembly of element Jacobians with the block look-up. For every order of the atomic
adds no access leaves the matrix, the sparsity pattern is kept, and the dense matrix grows by the
sum of the scattered element matrices. -/
theorem C07_assembleJacobian [AddCommMonoid K] {A : Crs K} {c2n : List Nat} {npc nc n di dj : Nat}
    {dom : Option (List Nat)} {nCells : Nat} {ws : View3 K} {order : List Nat}
    (h : A.WF n n) (hdi : A.rpb = di) (hdj : A.cpb = dj) (hm : Mesh c2n npc nc n)
    (hcp : Coupled A npc c2n nc) (hd : DomOk dom nCells nc)
    (h0 : nCells ≤ ws.n0) (h1 : npc * di ≤ ws.n1) (h2 : npc * dj ≤ ws.n2)
    (ho : IsSchedule order (nCells * (npc * di * (npc * dj)))) :
    (assembleJacobian (blockEntryOrdinal npc di dj A c2n) dom nCells (npc * di) (npc * dj) ws order
      A).Sat fun A' => A'.WF n n ∧ A'.rowMap = A.rowMap ∧ A'.cols = A.cols ∧
        A'.rpb = di ∧ A'.cpb = dj ∧
        ∀ i j, i < n * di →
          A'.dense i j = A.dense i j + scattered npc di dj c2n dom nCells ws.data i j := by
  have hdi0 : 0 < di := hdi ▸ h.rpb_pos
  have hdj0 : 0 < dj := hdj ▸ h.cpb_pos
  have hex : ∀ c r s, ∃ p, c < nCells → r < npc * di → s < npc * dj →
      blockEntryOrdinal npc di dj A c2n (gcell dom c) r s = Res.ok (some p) ∧
      p < A.vals.length ∧ A.HoldsAt p (cellNode npc c2n (gcell dom c) (r / di)) (r % di)
        (cellNode npc c2n (gcell dom c) (s / dj)) (s % dj) := by
    intro c r s
    by_cases hb : c < nCells ∧ r < npc * di ∧ s < npc * dj
    · have hc := hd.1 c hb.1
      obtain ⟨p, hp⟩ := (C06_blockEntryOrdinal h hdi hdj hm hc hb.2.1 hb.2.2).1
        (hcp _ _ _ hc (div_lt_of_lt hb.2.1) (div_lt_of_lt hb.2.2))
      exact ⟨p, fun _ _ _ => hp⟩
    · exact ⟨0, fun a b c => absurd ⟨a, b, c⟩ hb⟩
  choose pos hpos using hex
  unfold assembleJacobian
  rw [jacobianOps_eq pos hd (fun c r s hc hr hs => (hpos c r s hc hr hs).1) h0 h1 h2]
  simp only [Res.ok_bind]
  refine Res.Sat.bind (scatter_dense (n := n) h.rowMap_mono
    (fun c r _ => cellNode npc c2n (gcell dom c) (r / di)) (fun _ r _ => r % di)
    (fun c _ s => cellNode npc c2n (gcell dom c) (s / dj)) (fun _ _ s => s % dj) ?_ ho) ?_
  · intro c r s hc hr hs
    obtain ⟨-, p1, p2⟩ := hpos c r s hc hr hs
    exact ⟨p1, p2, hm.node_lt (hd.1 c hc) (div_lt_of_lt hr), by rw [hdi]; exact Nat.mod_lt _ hdi0,
      by rw [hdj]; exact Nat.mod_lt _ hdj0⟩
  · rintro v ⟨hl, hv⟩
    refine Res.Sat.ok ⟨wf_vals h hl, rfl, rfl, hdi, hdj, ?_⟩
    intro i j hi
    rw [hv i j (by rw [hdi]; exact hi)]
    simp only [hdi, hdj]
    rfl

/-- **C07**, transposed assembly: `assemble_transpose_jacobian` and
`assemble_jacobian_transpose_pod` with the block look-up of a matrix with `ds` rows and `dr`
columns per block add the transposed sum. -/
theorem C07_assembleTransposeJacobian [AddCommMonoid K] {A : Crs K} {c2n : List Nat}
    {npc nc n dr ds : Nat} {dom : Option (List Nat)} {nCells : Nat} {ws : View3 K}
    {order : List Nat}
    (h : A.WF n n) (hdi : A.rpb = ds) (hdj : A.cpb = dr) (hm : Mesh c2n npc nc n)
    (hcp : Coupled A npc c2n nc) (hd : DomOk dom nCells nc)
    (h0 : nCells ≤ ws.n0) (h1 : npc * dr ≤ ws.n1) (h2 : npc * ds ≤ ws.n2)
    (ho : IsSchedule order (nCells * (npc * dr * (npc * ds)))) :
    (assembleTransposeJacobian (blockEntryOrdinal npc ds dr A c2n) dom nCells (npc * dr) (npc * ds)
      ws order A).Sat fun A' => A'.WF n n ∧ A'.rowMap = A.rowMap ∧ A'.cols = A.cols ∧
        A'.rpb = ds ∧ A'.cpb = dr ∧
        ∀ i j, i < n * ds →
          A'.dense i j = A.dense i j + scattered npc dr ds c2n dom nCells ws.data j i := by
  have hdi0 : 0 < ds := hdi ▸ h.rpb_pos
  have hdj0 : 0 < dr := hdj ▸ h.cpb_pos
  have hex : ∀ c r s, ∃ p, c < nCells → r < npc * dr → s < npc * ds →
      blockEntryOrdinal npc ds dr A c2n (gcell dom c) s r = Res.ok (some p) ∧
      p < A.vals.length ∧ A.HoldsAt p (cellNode npc c2n (gcell dom c) (s / ds)) (s % ds)
        (cellNode npc c2n (gcell dom c) (r / dr)) (r % dr) := by
    intro c r s
    by_cases hb : c < nCells ∧ r < npc * dr ∧ s < npc * ds
    · have hc := hd.1 c hb.1
      obtain ⟨p, hp⟩ := (C06_blockEntryOrdinal h hdi hdj hm hc hb.2.2 hb.2.1).1
        (hcp _ _ _ hc (div_lt_of_lt hb.2.2) (div_lt_of_lt hb.2.1))
      exact ⟨p, fun _ _ _ => hp⟩
    · exact ⟨0, fun a b c => absurd ⟨a, b, c⟩ hb⟩
  choose pos hpos using hex
  unfold assembleTransposeJacobian
  rw [transposeJacobianOps_eq pos hd (fun c r s hc hr hs => (hpos c r s hc hr hs).1) h0 h1 h2]
  simp only [Res.ok_bind]
  refine Res.Sat.bind (scatter_dense (n := n) h.rowMap_mono
    (fun c _ s => cellNode npc c2n (gcell dom c) (s / ds)) (fun _ _ s => s % ds)
    (fun c r _ => cellNode npc c2n (gcell dom c) (r / dr)) (fun _ r _ => r % dr) ?_ ho) ?_
  · intro c r s hc hr hs
    obtain ⟨-, p1, p2⟩ := hpos c r s hc hr hs
    exact ⟨p1, p2, hm.node_lt (hd.1 c hc) (div_lt_of_lt hs), by rw [hdi]; exact Nat.mod_lt _ hdi0,
      by rw [hdj]; exact Nat.mod_lt _ hdj0⟩
  · rintro v ⟨hl, hv⟩
    refine Res.Sat.ok ⟨wf_vals h hl, rfl, rfl, hdi, hdj, ?_⟩
    intro i j hi
    rw [hv i j (by rw [hdi]; exact hi)]
    simp only [hdi, hdj]
    congr 1
    unfold scattered
    refine sum_congr rfl fun c _ => sum_congr rfl fun r _ => sum_congr rfl fun s _ => ?_
    exact if_congr and_comm rfl rfl

/-- **C07**, the transposing look-up: `assemble_jacobian` with
`BlockMatrixTransposeEntryOrdinal` adds the transposed sum as well. -/
theorem C07_assembleJacobian_transposeLookup [AddCommMonoid K] {A : Crs K} {c2n : List Nat}
    {npc nc n d : Nat} {dom : Option (List Nat)} {nCells : Nat} {ws : View3 K} {order : List Nat}
    (h : A.WF n n) (hdi : A.rpb = d) (hdj : A.cpb = d) (hm : Mesh c2n npc nc n)
    (hcp : Coupled A npc c2n nc) (hd : DomOk dom nCells nc)
    (h0 : nCells ≤ ws.n0) (h1 : npc * d ≤ ws.n1) (h2 : npc * d ≤ ws.n2)
    (ho : IsSchedule order (nCells * (npc * d * (npc * d)))) :
    (assembleJacobian (blockTransposeEntryOrdinal npc d A c2n) dom nCells (npc * d) (npc * d) ws
      order A).Sat fun A' => A'.WF n n ∧ A'.rowMap = A.rowMap ∧ A'.cols = A.cols ∧
        A'.rpb = d ∧ A'.cpb = d ∧
        ∀ i j, i < n * d →
          A'.dense i j = A.dense i j + scattered npc d d c2n dom nCells ws.data j i := by
  have hd0 : 0 < d := hdi ▸ h.rpb_pos
  have hex : ∀ c r s, ∃ p, c < nCells → r < npc * d → s < npc * d →
      blockTransposeEntryOrdinal npc d A c2n (gcell dom c) r s = Res.ok (some p) ∧
      p < A.vals.length ∧ A.HoldsAt p (cellNode npc c2n (gcell dom c) (s / d)) (s % d)
        (cellNode npc c2n (gcell dom c) (r / d)) (r % d) := by
    intro c r s
    by_cases hb : c < nCells ∧ r < npc * d ∧ s < npc * d
    · have hc := hd.1 c hb.1
      obtain ⟨p, hp⟩ := (C06_blockTransposeEntryOrdinal h hdi hdj hm hc hb.2.1 hb.2.2).1
        (hcp _ _ _ hc (div_lt_of_lt hb.2.2) (div_lt_of_lt hb.2.1))
      exact ⟨p, fun _ _ _ => hp⟩
    · exact ⟨0, fun a b c => absurd ⟨a, b, c⟩ hb⟩
  choose pos hpos using hex
  unfold assembleJacobian
  rw [jacobianOps_eq pos hd (fun c r s hc hr hs => (hpos c r s hc hr hs).1) h0 h1 h2]
  simp only [Res.ok_bind]
  refine Res.Sat.bind (scatter_dense (n := n) h.rowMap_mono
    (fun c _ s => cellNode npc c2n (gcell dom c) (s / d)) (fun _ _ s => s % d)
    (fun c r _ => cellNode npc c2n (gcell dom c) (r / d)) (fun _ r _ => r % d) ?_ ho) ?_
  · intro c r s hc hr hs
    obtain ⟨-, p1, p2⟩ := hpos c r s hc hr hs
    exact ⟨p1, p2, hm.node_lt (hd.1 c hc) (div_lt_of_lt hs), by rw [hdi]; exact Nat.mod_lt _ hd0,
      by rw [hdj]; exact Nat.mod_lt _ hd0⟩
  · rintro v ⟨hl, hv⟩
    refine Res.Sat.ok ⟨wf_vals h hl, rfl, rfl, hdi, hdj, ?_⟩
    intro i j hi
    rw [hv i j (by rw [hdi]; exact hi)]
    simp only [hdi, hdj]
    congr 1
    unfold scattered
    refine sum_congr rfl fun c _ => sum_congr rfl fun r _ => sum_congr rfl fun s _ => ?_
    exact if_congr and_comm rfl rfl

/-- **C07**, scalar storage: assembly with `MatrixEntryOrdinal` into a matrix with scalar
entries. -/
theorem C07_assembleJacobian_scalar [AddCommMonoid K] {A : Crs K} {c2n : List Nat}
    {npc nc n d : Nat} {dom : Option (List Nat)} {nCells : Nat} {ws : View3 K} {order : List Nat}
    (hr : RowMapOk A.rowMap (n * d) A.cols.length) (hv : A.vals.length = A.cols.length)
    (hrp : A.rpb = 1) (hcb : A.cpb = 1) (hm : Mesh c2n npc nc n)
    (hcp : ∀ cell r s, cell < nc → r < npc * d → s < npc * d →
      cellDof npc d c2n cell s ∈ A.rowCols (cellDof npc d c2n cell r))
    (hd : DomOk dom nCells nc)
    (h0 : nCells ≤ ws.n0) (h1 : npc * d ≤ ws.n1) (h2 : npc * d ≤ ws.n2)
    (ho : IsSchedule order (nCells * (npc * d * (npc * d)))) :
    (assembleJacobian (matrixEntryOrdinal npc d A c2n) dom nCells (npc * d) (npc * d) ws
      order A).Sat fun A' => A'.rowMap = A.rowMap ∧ A'.cols = A.cols ∧
        A'.vals.length = A.vals.length ∧
        ∀ i j, i < n * d →
          A'.dense i j = A.dense i j + scattered npc d d c2n dom nCells ws.data i j := by
  have hex : ∀ c r s, ∃ p, c < nCells → r < npc * d → s < npc * d →
      matrixEntryOrdinal npc d A c2n (gcell dom c) r s = Res.ok (some p) ∧
      p < A.vals.length ∧ atN A.rowMap (cellDof npc d c2n (gcell dom c) r) ≤ p ∧
      p < atN A.rowMap (cellDof npc d c2n (gcell dom c) r + 1) ∧
      atN A.cols p = cellDof npc d c2n (gcell dom c) s := by
    intro c r s
    by_cases hb : c < nCells ∧ r < npc * d ∧ s < npc * d
    · have hc := hd.1 c hb.1
      obtain ⟨p, hp⟩ := (C06_matrixEntryOrdinal hr hv hm hc hb.2.1 hb.2.2).1
        (hcp _ _ _ hc hb.2.1 hb.2.2)
      exact ⟨p, fun _ _ _ => hp⟩
    · exact ⟨0, fun a b c => absurd ⟨a, b, c⟩ hb⟩
  choose pos hpos using hex
  unfold assembleJacobian
  rw [jacobianOps_eq pos hd (fun c r s hc hr hs => (hpos c r s hc hr hs).1) h0 h1 h2]
  simp only [Res.ok_bind]
  refine Res.Sat.bind (scatter_dense (n := n * d) hr.mono
    (fun c r _ => cellDof npc d c2n (gcell dom c) r) (fun _ _ _ => 0)
    (fun c _ s => cellDof npc d c2n (gcell dom c) s) (fun _ _ _ => 0) ?_ ho) ?_
  · intro c r s hc hr' hs
    obtain ⟨-, p1, p2, p3, p4⟩ := hpos c r s hc hr' hs
    exact ⟨p1, ⟨_, p2, p3, p4, by rw [hrp, hcb]; omega⟩, hm.dof_lt (hd.1 c hc) hr',
      by omega, by omega⟩
  · rintro v ⟨hl, hv⟩
    refine Res.Sat.ok ⟨rfl, rfl, hl, ?_⟩
    intro i j hi
    rw [hv i j (by rw [hrp]; omega)]
    congr 1
    unfold scattered
    refine sum_congr rfl fun c _ => sum_congr rfl fun r _ => sum_congr rfl fun s _ => ?_
    rw [hrp, hcb]
    simp

end Plato
