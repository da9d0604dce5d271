import Verif.Fem.Assembly

/-!
# C08: residual assembly and its adjoint, the gather
-/

namespace Plato
open Finset
variable {K : Type}

theorem residualOps_eq {npc d nc n : Nat} {c2n : List Nat} {dom : Option (List Nat)}
    {nCells : Nat} {ws : View2 K} (hm : Mesh c2n npc nc n) (hd : DomOk dom nCells nc)
    (h0 : nCells ≤ ws.n0) (h1 : npc * d ≤ ws.n1) :
    residualOps npc d c2n dom nCells ws = Res.ok (opsList nCells npc d
      (fun c a k => cellNode npc c2n (gcell dom c) a * d + k) (fun c a k => ws.data c (a * d + k))) := by
  unfold residualOps opsList
  rw [forRange_append _ [] fun c hc acc => ?_]
  · rfl
  rw [cellOf_eq hd hc]
  simp only [Res.ok_bind]
  refine forRange_append _ acc fun a ha acc => ?_
  refine forRange_append _ acc fun k hk acc => ?_
  unfold vectorEntryOrdinal
  rw [rd_atN (hm.idx (hd.1 c hc) ha)]
  simp only [Res.ok_bind, Res.pure_eq]
  have : a * d + k < npc * d := by rw [Nat.mul_comm a]; exact block_lt hk ha
  rw [rd2_eq (by omega)]
  rfl

/-- Sum of the element vectors `w c` scattered to the global entry `q`. -/
def scatteredVec [AddCommMonoid K] (npc d : Nat) (c2n : List Nat) (dom : Option (List Nat))
    (nCells : Nat) (w : Nat → Nat → K) (q : Nat) : K :=
  ∑ c ∈ range nCells, ∑ l ∈ range (npc * d),
    if cellDof npc d c2n (gcell dom c) l = q then w c l else 0

/-- **C08**: `assemble_residual` adds every element entry once to its global degree of freedom, in
every order of the atomic adds. -/
theorem C08_assembleResidual [AddCommMonoid K] {npc d nc n : Nat} {c2n : List Nat}
    {dom : Option (List Nat)} {nCells : Nat} {ws : View2 K} {v : List K} {order : List Nat}
    (hm : Mesh c2n npc nc n) (hd : DomOk dom nCells nc) (hv : v.length = n * d)
    (h0 : nCells ≤ ws.n0) (h1 : npc * d ≤ ws.n1) (ho : IsSchedule order (nCells * (npc * d))) :
    (assembleResidual npc d c2n dom nCells ws order v).Sat fun v' => v'.length = n * d ∧
      ∀ q, at0 v' q = at0 v q + scatteredVec npc d c2n dom nCells ws.data q := by
  unfold assembleResidual
  rw [residualOps_eq hm hd h0 h1]
  simp only [Res.ok_bind]
  refine (runAtomics_sat (by rwa [opsList_length]) ?_).mono ?_
  · intro op hop
    obtain ⟨c, a, k, hc, ha, hk, rfl⟩ := opsList_mem hop
    rw [hv]
    show _ * d + k < _
    rw [Nat.mul_comm _ d]
    exact block_lt hk (hm.node_lt (hd.1 c hc) ha)
  · rintro v' ⟨hl, hq⟩
    refine ⟨hl.trans hv, fun q => ?_⟩
    rw [hq q, opsList_sum, sum_product]
    congr 1
    unfold scatteredVec
    refine sum_congr rfl fun c _ => ?_
    rw [sum_product, sum_range_blocks]
    refine sum_congr rfl fun a _ => sum_congr rfl fun k hk => ?_
    have hk := mem_range.1 hk
    unfold cellDof
    rw [Nat.mul_comm a, div_block hk, mod_block hk, Nat.mul_comm d (cellNode _ _ _ _)]

theorem wr2_eq {w : View2 K} {i j : Nat} {a : K} (h : i < w.n0 ∧ j < w.n1) :
    wr2 w i j a =
      Res.ok { w with data := fun i' j' => if i' = i ∧ j' = j then a else w.data i' j' } := if_pos h

/-- `workset_state_scalar_scalar` copies, for every schedule of the cells, the global entries of
the local degrees of freedom of each cell. -/
theorem C08_gatherState [Zero K] {npc d nc n : Nat} {c2n : List Nat}
    {dom : Option (List Nat)} {nCells : Nat} {ws : View2 K} {u : List K} {order : List Nat}
    (hm : Mesh c2n npc nc n) (hd : DomOk dom nCells nc) (hu : u.length = n * d)
    (h0 : ws.n0 = nCells) (h1 : ws.n1 = npc * d) (ho : IsSchedule order nCells) :
    (gatherState npc d c2n dom u order ws).Sat fun ws' => ws'.n0 = nCells ∧ ws'.n1 = npc * d ∧
      ∀ c l, c < nCells → l < npc * d → ws'.data c l = at0 u (cellDof npc d c2n (gcell dom c) l) := by
  unfold gatherState
  refine (parFor_posts ho (fun w : View2 K => w.n0 = nCells ∧ w.n1 = npc * d)
    (fun c w => ∀ l, l < npc * d → w.data c l = at0 u (cellDof npc d c2n (gcell dom c) l))
    ⟨h0, h1⟩ ?_).mono ?_
  · rintro c w hc ⟨w0, w1⟩
    unfold gatherCell
    rw [cellOf_eq hd hc]
    simp only [Res.ok_bind]
    refine (forRange_inv (fun k (w' : View2 K) => w'.n0 = nCells ∧ w'.n1 = npc * d ∧
      (∀ a k', a < npc → k' < k → w'.data c (a * d + k') =
        at0 u (d * cellNode npc c2n (gcell dom c) a + k')) ∧
      ∀ c' l, c' ≠ c → w'.data c' l = w.data c' l) (Nat.zero_le _)
      ⟨w0, w1, by intros; omega, by intros; rfl⟩ ?_).mono ?_
    · rintro k w' - hk ⟨a0, a1, a2, a3⟩
      refine (forRange_inv (fun a (w'' : View2 K) => w''.n0 = nCells ∧ w''.n1 = npc * d ∧
        (∀ b k', b < npc → (k' < k ∨ (k' = k ∧ b < a)) → w''.data c (b * d + k') =
          at0 u (d * cellNode npc c2n (gcell dom c) b + k')) ∧
        ∀ c' l, c' ≠ c → w''.data c' l = w.data c' l) (Nat.zero_le _)
        ⟨a0, a1, ?_, a3⟩ ?_).mono ?_
      · intro b k' hb hk'
        exact a2 b k' hb (by omega)
      · rintro a w'' - ha ⟨b0, b1, b2, b3⟩
        unfold vectorEntryOrdinal
        rw [rd_atN (hm.idx (hd.1 c hc) ha)]
        simp only [Res.ok_bind, Res.pure_eq]
        have hp : atN c2n (gcell dom c * npc + a) * d + k < u.length := by
          rw [hu, Nat.mul_comm _ d]
          exact block_lt hk (hm.node_lt (hd.1 c hc) ha)
        rw [rd_at0 hp]
        simp only [Res.ok_bind]
        have hq : a * d + k < npc * d := by rw [Nat.mul_comm a]; exact block_lt hk ha
        rw [wr2_eq (by omega)]
        refine Res.Sat.ok ⟨b0, b1, ?_, ?_⟩
        · intro b k' hb hk'
          show (if c = c ∧ b * d + k' = a * d + k then _ else _) = _
          by_cases he : b * d + k' = a * d + k
          · rw [if_pos ⟨rfl, he⟩]
            have hk'd : k' < d := by omega
            have e1 : b = a := by
              have := div_block (q := b) hk'd
              rw [Nat.mul_comm, he, Nat.mul_comm, div_block hk] at this
              exact this.symm
            subst e1
            have e2 : k' = k := by omega
            subst e2
            unfold cellNode
            rw [Nat.mul_comm]
          · rw [if_neg (fun h => he h.2)]
            refine b2 b k' hb ?_
            rcases hk' with h | ⟨h1, h2⟩
            · exact Or.inl h
            · refine Or.inr ⟨h1, ?_⟩
              rcases Nat.lt_or_ge b a with h | h
              · exact h
              · have : b = a := by omega
                subst this; subst h1; exact absurd rfl he
        · intro c' l hne
          show (if c' = c ∧ l = a * d + k then _ else _) = _
          rw [if_neg (fun h => hne h.1)]
          exact b3 c' l hne
      · rintro w'' ⟨b0, b1, b2, b3⟩
        refine ⟨b0, b1, ?_, b3⟩
        intro b k' hb hk'
        exact b2 b k' hb (by omega)
    · rintro w' ⟨a0, a1, a2, a3⟩
      refine ⟨⟨a0, a1⟩, ?_, ?_⟩
      · intro l hl
        have hd0 : 0 < d := Nat.pos_of_ne_zero (by rintro rfl; simp at hl)
        have := a2 (l / d) (l % d) (div_lt_of_lt hl) (Nat.mod_lt _ hd0)
        rwa [Nat.mul_comm, Nat.div_add_mod] at this
      · intro c' _ hne hp l hl
        rw [a3 c' l hne]
        exact hp l hl
  · rintro w ⟨⟨w0, w1⟩, hp⟩
    exact ⟨w0, w1, fun c l hc hl => hp c hc l hl⟩

/-- Pairing of a scattered family with a global vector. -/
theorem scatteredVec_pairing [CommSemiring K] {npc d nc n : Nat} {c2n : List Nat}
    {dom : Option (List Nat)} {nCells : Nat} (hm : Mesh c2n npc nc n) (hd : DomOk dom nCells nc)
    (w : Nat → Nat → K) (u : Nat → K) :
    ∑ q ∈ range (n * d), scatteredVec npc d c2n dom nCells w q * u q =
      ∑ c ∈ range nCells, ∑ l ∈ range (npc * d), w c l * u (cellDof npc d c2n (gcell dom c) l) := by
  unfold scatteredVec
  simp only [sum_mul]
  rw [sum_comm]
  refine sum_congr rfl fun c hc => ?_
  rw [sum_comm]
  refine sum_congr rfl fun l hl => ?_
  have hlt := hm.dof_lt (hd.1 c (mem_range.1 hc)) (mem_range.1 hl)
  rw [sum_eq_single (cellDof npc d c2n (gcell dom c) l)]
  · rw [if_pos rfl]
  · intro q _ hne
    rw [if_neg (Ne.symm hne), zero_mul]
  · intro h; exact absurd (mem_range.2 hlt) h

/-- **C08**, adjointness: for every element workset `w` and global vector `u`, assembling `w` into a
zero vector and pairing with `u` equals pairing `w` with the gathered `u`. -/
theorem C08_adjoint [CommSemiring K] {npc d nc n : Nat} {c2n : List Nat}
    {dom : Option (List Nat)} {nCells : Nat} {w ws : View2 K} {u : List K} {o1 o2 : List Nat}
    (hm : Mesh c2n npc nc n) (hd : DomOk dom nCells nc) (hu : u.length = n * d)
    (hw0 : nCells ≤ w.n0) (hw1 : npc * d ≤ w.n1) (h0 : ws.n0 = nCells) (h1 : ws.n1 = npc * d)
    (ho1 : IsSchedule o1 (nCells * (npc * d))) (ho2 : IsSchedule o2 nCells) :
    (assembleResidual npc d c2n dom nCells w o1 (List.replicate (n * d) 0)).Sat fun v =>
      (gatherState npc d c2n dom u o2 ws).Sat fun ws' =>
        ∑ q ∈ range (n * d), at0 v q * at0 u q =
          ∑ c ∈ range nCells, ∑ l ∈ range (npc * d), w.data c l * ws'.data c l := by
  refine (C08_assembleResidual hm hd (by simp) hw0 hw1 ho1).mono ?_
  rintro v ⟨-, hv⟩
  refine (C08_gatherState hm hd hu h0 h1 ho2).mono ?_
  rintro ws' ⟨-, -, hg⟩
  have hz : ∀ q, at0 (List.replicate (n * d) (0 : K)) q = 0 := by
    intro q
    unfold at0
    by_cases hq : q < n * d
    · simp [hq]
    · simp [hq]
  simp only [hv, hz, zero_add]
  rw [scatteredVec_pairing hm hd w.data (at0 u)]
  refine sum_congr rfl fun c hc => sum_congr rfl fun l hl => ?_
  rw [hg c l (mem_range.1 hc) (mem_range.1 hl)]

/-! ## Several domains -/

/-- The loop over the domains of a spatial model, e.g.
/repo/src/elliptic/VectorFunction.hpp:246-278: each domain adds its cells to the same vector.
A domain is given by its cell list, its residual workset and the schedule of its kernel. -/
def assembleResidualDomains [Add K] (npc d : Nat) (c2n : List Nat) :
    List (List Nat × View2 K × List Nat) → List K → Res (List K)
  | [], v => Res.ok v
  | D :: Ds, v => do
    let v ← assembleResidual npc d c2n (some D.1) D.1.length D.2.1 D.2.2 v
    assembleResidualDomains npc d c2n Ds v

theorem sum_gcell [AddCommMonoid K] (l : List Nat) (f : Nat → K) :
    ∑ c ∈ range l.length, f (gcell (some l) c) = (l.map f).sum := by
  induction l with
  | nil => simp
  | cons a l ih =>
    rw [List.length_cons, sum_range_succ', List.map_cons, List.sum_cons, ← ih, add_comm]
    rfl

/-- **C08**, domains: if the cell lists of the domains together hold every cell once, then assembly
domain by domain equals assembly over all cells. -/
theorem C08_domains [AddCommMonoid K] {npc d nc n : Nat} {c2n : List Nat}
    (Ds : List (List Nat × View2 K × List Nat)) (w : Nat → Nat → K) {v : List K}
    (hm : Mesh c2n npc nc n) (hv : v.length = n * d)
    (hpart : (Ds.flatMap fun D => D.1).Perm (List.range nc))
    (hD : ∀ D ∈ Ds, D.1.length ≤ D.2.1.n0 ∧ npc * d ≤ D.2.1.n1 ∧
      IsSchedule D.2.2 (D.1.length * (npc * d)) ∧
      ∀ c l, c < D.1.length → D.2.1.data c l = w (atN D.1 c) l) :
    (assembleResidualDomains npc d c2n Ds v).Sat fun v' => v'.length = n * d ∧
      ∀ q, at0 v' q = at0 v q + scatteredVec npc d c2n none nc w q := by
  have hcells : ∀ D ∈ Ds, ∀ x ∈ D.1, x < nc := by
    intro D hD x hx
    exact List.mem_range.1 (hpart.mem_iff.1 (List.mem_flatMap.2 ⟨D, hD, hx⟩))
  have key : ∀ (Ds : List (List Nat × View2 K × List Nat)) (v : List K), v.length = n * d →
      (∀ D ∈ Ds, ∀ x ∈ D.1, x < nc) →
      (∀ D ∈ Ds, D.1.length ≤ D.2.1.n0 ∧ npc * d ≤ D.2.1.n1 ∧
        IsSchedule D.2.2 (D.1.length * (npc * d)) ∧
        ∀ c l, c < D.1.length → D.2.1.data c l = w (atN D.1 c) l) →
      (assembleResidualDomains npc d c2n Ds v).Sat fun v' => v'.length = n * d ∧
        ∀ q, at0 v' q = at0 v q + ((Ds.flatMap fun D => D.1).map fun c =>
          ∑ l ∈ range (npc * d), if cellDof npc d c2n c l = q then w c l else 0).sum := by
    intro Ds
    induction Ds with
    | nil => intro v hv _ _; exact Res.Sat.ok ⟨hv, by simp⟩
    | cons D Ds ih =>
      intro v hv hc hD
      obtain ⟨d0, d1, d2, d3⟩ := hD D (by simp)
      have hdom : DomOk (some D.1) D.1.length nc := by
        refine ⟨?_, ?_⟩
        · intro c hlt
          have : gcell (some D.1) c = D.1[c] := by
            show atN D.1 c = _
            exact at0_eq hlt
          rw [this]
          exact hc D (by simp) _ (List.getElem_mem hlt)
        · intro l hl; cases hl; exact Nat.le_refl _
      unfold assembleResidualDomains
      refine Res.Sat.bind (C08_assembleResidual hm hdom hv d0 d1 d2) ?_
      rintro v1 ⟨hl1, hv1⟩
      refine (ih v1 hl1 (fun E hE => hc E (by simp [hE])) (fun E hE => hD E (by simp [hE]))).mono ?_
      rintro v2 ⟨hl2, hv2⟩
      refine ⟨hl2, fun q => ?_⟩
      rw [hv2 q, hv1 q, List.flatMap_cons, List.map_append, List.sum_append, add_assoc]
      congr 2
      rw [← sum_gcell]
      unfold scatteredVec
      refine sum_congr rfl fun c hc => sum_congr rfl fun l _ => ?_
      rw [d3 c l (mem_range.1 hc)]
      rfl
  refine (key Ds v hv hcells hD).mono ?_
  rintro v' ⟨hl, hq⟩
  refine ⟨hl, fun q => ?_⟩
  rw [hq q, (hpart.map _).sum_eq, sum_map_range]
  rfl

/-- The hypotheses of `C08_domains` are met by two domains of a mesh with three bars. -/
example : Mesh [0, 1, 1, 2, 2, 3] 2 3 4 ∧
    ([[2, 0], [1]].flatMap fun D => D).Perm (List.range 3) := ⟨⟨rfl, by decide⟩, by decide⟩

example : assembleResidual 2 1 [0, 1, 1, 2, 2, 3] (some [2, 0]) 2
    (⟨2, 2, fun c l => ((10 * c + l + 1 : Nat) : Int)⟩ : View2 Int) [3, 0, 2, 1] [0, 0, 0, 0] =
      Res.ok [11, 12, 1, 2] := by decide

end Plato
