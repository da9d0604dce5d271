import Verif.Fem.Residual

/-!
# C07: from the node-node graph to the assembled matrix; several domains
-/

namespace Plato
open Finset
variable {K : Type}

/-- The node-node graph belongs to the mesh: two different nodes of one cell are neighbours. -/
def GraphOfMesh (orm oab : List Nat) (npc : Nat) (c2n : List Nat) (nc : Nat) : Prop :=
  ∀ cell a b, cell < nc → a < npc → b < npc →
    cellNode npc c2n cell a ≠ cellNode npc c2n cell b →
    cellNode npc c2n cell b ∈ nbrs orm oab (cellNode npc c2n cell a)

theorem hasBlock_iff {A : Crs K} {n I b : Nat} (h : A.WF n n) (hI : I < n) :
    A.hasBlock I b ↔ b ∈ A.rowCols I := by
  unfold Crs.hasBlock Crs.rowCols rowLen rowLenL
  rw [List.mem_map]
  constructor
  · rintro ⟨q, hq, hqb⟩
    exact ⟨_, by rw [List.mem_range'_1]; omega, hqb⟩
  · rintro ⟨k, hk, hkb⟩
    rw [List.mem_range'_1] at hk
    exact ⟨k - atN A.rowMap I, by omega, by rw [← hkb]; congr 1; omega⟩

theorem created_coupled {A : Crs K} {orm oab c2n : List Nat} {npc nc n : Nat} (h : A.WF n n)
    (hm : Mesh c2n npc nc n) (hg : GraphOfMesh orm oab npc c2n nc)
    (hrow : ∀ I, I < n → (A.rowCols I).Perm (I :: nbrs orm oab I)) : Coupled A npc c2n nc := by
  intro cell a b hc ha hb
  have hI := hm.node_lt hc ha
  rw [hasBlock_iff h hI, (hrow _ hI).mem_iff]
  by_cases he : cellNode npc c2n cell a = cellNode npc c2n cell b
  · rw [he]; exact List.mem_cons_self
  · exact List.mem_cons_of_mem _ (hg cell a b hc ha hb he)

/-- **C07**, end to end: `CreateBlockMatrix` followed by `assemble_jacobian_fad` never leaves an
allocation and yields the sum of the scattered element matrices, for every schedule of the two
kernels. -/
theorem C07_create_then_assemble [AddCommMonoid K] {orm oab c2n : List Nat} {npc nc n di dj : Nat}
    {dom : Option (List Nat)} {nCells : Nat} {ws : View3 K} {o order : List Nat}
    (hadj : Adjacency orm oab n) (hdi : 0 < di) (hdj : 0 < dj) (ho : IsSchedule o n)
    (hm : Mesh c2n npc nc n) (hg : GraphOfMesh orm oab npc c2n nc) (hd : DomOk dom nCells nc)
    (h0 : nCells ≤ ws.n0) (h1 : npc * di ≤ ws.n1) (h2 : npc * dj ≤ ws.n2)
    (hord : IsSchedule order (nCells * (npc * di * (npc * dj)))) :
    (createBlockMatrix (K := K) di dj o orm oab >>= fun A =>
      assembleJacobian (blockEntryOrdinal npc di dj A c2n) dom nCells (npc * di) (npc * dj) ws
        order A).Sat fun A => A.WF n n ∧
        ∀ i j, i < n * di → A.dense i j = scattered npc di dj c2n dom nCells ws.data i j := by
  refine Res.Sat.bind (C05_createBlockMatrix hadj hdi hdj ho) ?_
  rintro A ⟨hwf, hr, hc, hrow, hz⟩
  have hcp := created_coupled hwf hm hg (fun I hI => (hrow I hI).1)
  refine (C07_assembleJacobian hwf hr hc hm hcp hd h0 h1 h2 hord).mono ?_
  rintro A' ⟨hwf', -, -, -, -, hden⟩
  refine ⟨hwf', ?_⟩
  intro i j hi
  rw [hden i j hi, hz i j, zero_add]

/-- The loop over the domains of a spatial model, e.g.
/repo/src/elliptic/VectorFunction.hpp:523-558: each domain adds its cells to the same matrix. -/
def assembleJacobianDomains [Add K] (npc di dj : Nat) (c2n : List Nat) :
    List (List Nat × View3 K × List Nat) → Crs K → Res (Crs K)
  | [], A => Res.ok A
  | D :: Ds, A => do
    let A ← assembleJacobian (blockEntryOrdinal npc di dj A c2n) (some D.1) D.1.length (npc * di)
      (npc * dj) D.2.1 D.2.2 A
    assembleJacobianDomains npc di dj c2n Ds A

theorem domOk_of_mem {l : List Nat} {nc : Nat} (h : ∀ x ∈ l, x < nc) :
    DomOk (some l) l.length nc := by
  refine ⟨?_, ?_⟩
  · intro c hlt
    have : gcell (some l) c = l[c] := by
      show atN l c = _
      exact at0_eq hlt
    rw [this]
    exact h _ (List.getElem_mem hlt)
  · intro l' hl; cases hl; exact Nat.le_refl _

/-- **C07**, domains: if the cell lists of the domains together hold every cell once, assembly
domain by domain gives the sum over all cells. -/
theorem C07_domains [AddCommMonoid K] {A : Crs K} {c2n : List Nat} {npc nc n di dj : Nat}
    (Ds : List (List Nat × View3 K × List Nat)) (J : Nat → Nat → Nat → K)
    (h : A.WF n n) (hdi : A.rpb = di) (hdj : A.cpb = dj) (hm : Mesh c2n npc nc n)
    (hcp : Coupled A npc c2n nc)
    (hpart : (Ds.flatMap fun D => D.1).Perm (List.range nc))
    (hD : ∀ D ∈ Ds, D.1.length ≤ D.2.1.n0 ∧ npc * di ≤ D.2.1.n1 ∧ npc * dj ≤ D.2.1.n2 ∧
      IsSchedule D.2.2 (D.1.length * (npc * di * (npc * dj))) ∧
      ∀ c r s, c < D.1.length → D.2.1.data c r s = J (atN D.1 c) r s) :
    (assembleJacobianDomains npc di dj c2n Ds A).Sat fun A' => A'.WF n n ∧
      ∀ i j, i < n * di → A'.dense i j = A.dense i j + scattered npc di dj c2n none nc J i j := by
  have hcells : ∀ D ∈ Ds, ∀ x ∈ D.1, x < nc := by
    intro D hD x hx
    exact List.mem_range.1 (hpart.mem_iff.1 (List.mem_flatMap.2 ⟨D, hD, hx⟩))
  have key : ∀ (Ds : List (List Nat × View3 K × List Nat)) (A : Crs K), A.WF n n → A.rpb = di →
      A.cpb = dj → Coupled A npc c2n nc →
      (∀ D ∈ Ds, ∀ x ∈ D.1, x < nc) →
      (∀ D ∈ Ds, D.1.length ≤ D.2.1.n0 ∧ npc * di ≤ D.2.1.n1 ∧ npc * dj ≤ D.2.1.n2 ∧
        IsSchedule D.2.2 (D.1.length * (npc * di * (npc * dj))) ∧
        ∀ c r s, c < D.1.length → D.2.1.data c r s = J (atN D.1 c) r s) →
      (assembleJacobianDomains npc di dj c2n Ds A).Sat fun A' => A'.WF n n ∧
        ∀ i j, i < n * di → A'.dense i j = A.dense i j + ((Ds.flatMap fun D => D.1).map fun c =>
          ∑ r ∈ range (npc * di), ∑ s ∈ range (npc * dj),
            if cellDof npc di c2n c r = i ∧ cellDof npc dj c2n c s = j then J c r s else 0).sum := by
    intro Ds
    induction Ds with
    | nil => intro A h _ _ _ _ _; exact Res.Sat.ok ⟨h, by simp⟩
    | cons D Ds ih =>
      intro A h hdi hdj hcp hc hD
      obtain ⟨d0, d1, d2, d3, d4⟩ := hD D (by simp)
      have hdom := domOk_of_mem (hc D (by simp))
      unfold assembleJacobianDomains
      refine Res.Sat.bind (C07_assembleJacobian h hdi hdj hm hcp hdom d0 d1 d2 d3) ?_
      rintro A1 ⟨hwf1, hrm, hcl, hr1, hc1, hden1⟩
      have hcp1 : Coupled A1 npc c2n nc := by
        intro cell a b x y z
        have := hcp cell a b x y z
        unfold Crs.hasBlock rowLen rowLenL at this ⊢
        rwa [hrm, hcl]
      refine (ih A1 hwf1 hr1 hc1 hcp1 (fun E hE => hc E (by simp [hE]))
        (fun E hE => hD E (by simp [hE]))).mono ?_
      rintro A2 ⟨hwf2, hden2⟩
      refine ⟨hwf2, fun i j hi => ?_⟩
      rw [hden2 i j hi, hden1 i j hi, List.flatMap_cons, List.map_append, List.sum_append, add_assoc]
      congr 2
      rw [← sum_gcell]
      unfold scattered
      refine sum_congr rfl fun c hc => sum_congr rfl fun r _ => sum_congr rfl fun s _ => ?_
      rw [d4 c r s (mem_range.1 hc)]
      rfl
  refine (key Ds A h hdi hdj hcp hcells hD).mono ?_
  rintro A' ⟨hl, hq⟩
  refine ⟨hl, fun i j hi => ?_⟩
  rw [hq i j hi, (hpart.map _).sum_eq, sum_map_range]
  rfl

/-- A look-up that finds no entry makes the unguarded atomic add leave the matrix: assembling a
cell whose nodes are not coupled in the graph is undefined behaviour. -/
theorem C07_uncoupled_is_ub [AddCommMonoid K] {A : Crs K} {c2n : List Nat} {npc nc n di dj : Nat}
    {ws : View3 K} {order : List Nat} {nCells : Nat}
    (h : A.WF n n) (hdi : A.rpb = di) (hdj : A.cpb = dj) (hm : Mesh c2n npc nc n)
    (hpos : 0 < nCells) (hn : nCells ≤ nc) (hnpc : 0 < npc)
    (hun : ¬ A.hasBlock (cellNode npc c2n 0 0) (cellNode npc c2n 0 0)) :
    assembleJacobian (blockEntryOrdinal npc di dj A c2n) none nCells (npc * di) (npc * dj) ws order A
      = Res.ub := by
  have d1 : 0 < npc * di := Nat.mul_pos hnpc (hdi ▸ h.rpb_pos)
  have d2 : 0 < npc * dj := Nat.mul_pos hnpc (hdj ▸ h.cpb_pos)
  have := (C06_blockEntryOrdinal h hdi hdj hm (cell := 0) (i := 0) (j := 0) (by omega) d1 d2).2
    (by simpa using hun)
  unfold assembleJacobian jacobianOps
  rw [forRange_succ hpos]
  simp only [cellOf, Res.ok_bind]
  rw [forRange_succ d1, forRange_succ d2, this]
  rfl

/-- The hypotheses of `C07_create_then_assemble` hold for two bars on three nodes. -/
example : Adjacency [0, 1, 3, 4] [1, 0, 2, 1] 3 ∧ Mesh [0, 1, 1, 2] 2 2 3 ∧
    GraphOfMesh [0, 1, 3, 4] [1, 0, 2, 1] 2 [0, 1, 1, 2] 2 :=
  ⟨C05_example, C06_example_mesh, by
    intro cell a b hc ha hb
    have : cell = 0 ∨ cell = 1 := by omega
    have : a = 0 ∨ a = 1 := by omega
    have : b = 0 ∨ b = 1 := by omega
    rcases ‹cell = 0 ∨ cell = 1› with rfl | rfl <;> rcases ‹a = 0 ∨ a = 1› with rfl | rfl <;>
      rcases ‹b = 0 ∨ b = 1› with rfl | rfl <;> decide⟩

end Plato
