import Verif.HeatBnd.Model
import Verif.Bnd.Work
import Verif.Thermal.Parabolic

/-!
# C81: residuals with several members of boundary conditions
-/

namespace Plato.HeatBnd
open Finset Plato Plato.Mech Plato.Thermal Plato.Tm
open Plato.Bnd hiding Add

/-- A member fits a mesh. -/
structure LoadBlock.Ok (M : FeModel) (F : Faces) (B : LoadBlock) : Prop where
  layout : B.Y.numDofs + B.Y.offset ≤ B.Y.dofsPerNode
  dofs : B.Y.dofsPerNode = M.ndof
  bcs : BCsOk M.dim M.nc M.c2n F B.bcs
  orders : ∀ b C, B.bcs[b]? = some C → IsSchedule (B.orders b) C.set.length

/-- What the members add to the residual. -/
noncomputable def blocksForce (M : FeModel) (F : Faces) (normal : Nat → Nat → Nat → ℝ) (x : List ℝ) (l : List LoadBlock)
    (q : Nat) : ℝ := (l.map fun B => B.scale * bndForce M.dim B.Y F normal x B.bcs q).sum

section
variable {M : FeModel} (hd : M.dim = 1 ∨ M.dim = 2 ∨ M.dim = 3) {F : Faces} {rule : CubRule ℝ}
  (hr : linearTetCubRule M.dim = .ok rule) (normal : Nat → Nat → Nat → ℝ) {x : List ℝ}
include hd hr

/-- The workset of a member, assembled. -/
theorem scattered_block {B : LoadBlock} (hB : B.Ok M F) {g : Nat → Nat → Nat → ℝ}
    (hg : ∀ c a k, c < M.nc → a < M.npc → k < M.dim → g c a k = M.cellX x c a k) (q : Nat) :
    scatteredVec M.npc M.ndof M.c2n none M.nc
      (bndRow Real.sqrt id M.dim B.Y M.c2n F normal (B.scale * rule.weight) g B.bcs) q =
      B.scale * bndForce M.dim B.Y F normal x B.bcs q := by
  have e : bndRow Real.sqrt id M.dim B.Y M.c2n F normal (B.scale * rule.weight) g B.bcs =
      bndRow Real.sqrt id M.dim B.Y M.c2n F normal (B.scale * rule.weight) (M.cellX x) B.bcs := by
    funext c i
    unfold bndRow
    congr 1
    refine List.map_congr_left fun C hC => ?_
    congr 1
    refine List.map_congr_left fun face hface => ?_
    congr 1
    unfold faceAddsOf
    rw [List.flatMap_def, List.flatMap_def]
    congr 1
    refine List.map_congr_left fun cell hcell => ?_
    have hF := hB.bcs.faces C hC
    have hc := hF.cell face hface cell hcell
    have hsub := hF.sub face hface cell hcell
    rw [weightForm_congr Real.sqrt hd _ fun n k hn hk => hg cell _ k hc (localOf_spec (hsub n hn)).1 hk]
  rw [e]
  unfold bndRow bndForce
  rw [scatteredVec_listSum B.bcs (fun C c i => (C.set.map fun face =>
    addedAt (faceAddsOf Real.sqrt M.dim B.Y M.c2n F (B.scale * rule.weight) (C.term id M.dim F normal) (M.cellX x) face)
      (c, i)).sum), ← List.sum_map_mul_left]
  congr 1
  refine List.map_congr_left fun C hC => ?_
  rw [scatteredVec_listSum C.set (fun face c i =>
    addedAt (faceAddsOf Real.sqrt M.dim B.Y M.c2n F (B.scale * rule.weight) (C.term id M.dim F normal) (M.cellX x) face)
      (c, i)), ← List.sum_map_mul_left]
  congr 1
  refine List.map_congr_left fun face hface => ?_
  rw [cubWeight_eq hd hr]
  exact scattered_face hB.layout hB.dofs hd (hB.bcs.faces C hC) normal B.scale C (fun _ _ _ _ _ _ => rfl) hface q

theorem loadBlocks_ok (hlen : M.c2n.length = M.nc * (M.dim + 1)) {g : V3 ℝ} (g0 : g.d0 = M.nc) (g1 : g.d1 = M.npc)
    (g2 : g.d2 = M.dim) (hg : ∀ c a k, c < M.nc → a < M.npc → k < M.dim → g.e c a k = M.cellX x c a k) :
    ∀ (l : List LoadBlock), (∀ B ∈ l, B.Ok M F) → ∀ r : V2 ℝ, r.d0 = M.nc → r.d1 = M.npc * M.ndof →
      (loadBlocks M.dim M.c2n F normal rule.weight l g r).Sat fun r' => r'.d0 = M.nc ∧ r'.d1 = M.npc * M.ndof ∧
        ∀ q, scatteredVec M.npc M.ndof M.c2n none M.nc r'.e q =
          scatteredVec M.npc M.ndof M.c2n none M.nc r.e q + blocksForce M F normal x l q := by
  intro l
  induction l with
  | nil =>
    intro _ r r0 r1
    exact Res.Sat.ok ⟨r0, r1, fun q => by simp [blocksForce]⟩
  | cons B l ih =>
    intro hl r r0 r1
    have hB := hl B List.mem_cons_self
    unfold loadBlocks
    rw [List.foldlM_cons, naturalBCs_ok Real.sqrt id hd hB.layout hlen hB.bcs normal B.scale rule.weight B.init hB.orders
      g0.ge g1 g2 r0.ge (by rw [hB.dofs, r1]; exact le_rfl), Res.ok_bind]
    have ih' := ih (fun C hC => hl C (List.mem_cons_of_mem _ hC)) ⟨r.d0, r.d1, fun c i => r.e c i +
      bndRow Real.sqrt id M.dim B.Y M.c2n F normal (id (B.scale * rule.weight)) g.e B.bcs c i⟩ r0 r1
    unfold loadBlocks at ih'
    refine ih'.mono ?_
    rintro r' ⟨h0, h1, hq⟩
    refine ⟨h0, h1, fun q => ?_⟩
    rw [hq q]
    dsimp only
    rw [scatteredVec_add, show id (B.scale * rule.weight) = B.scale * rule.weight from rfl, scattered_block hd hr normal hB hg q]
    unfold blocksForce
    rw [List.map_cons, List.sum_cons, add_assoc]

end

section
variable {M : FeModel} (hM : M.Ok) (hd : M.dim = 1 ∨ M.dim = 2 ∨ M.dim = 3) {F : Faces} {rule : CubRule ℝ}
  (hr : linearTetCubRule M.dim = .ok rule) (normal : Nat → Nat → Nat → ℝ) {l : List LoadBlock} (hl : ∀ B ∈ l, B.Ok M F)
  {u z x : List ℝ} (hu : u.length = M.nn * M.ndof) (hz : z.length = M.nn) (hx : x.length = M.nn * M.dim)
include hM hd hr hl hu hz hx

/-- A residual with boundary conditions. -/
theorem blocks_value {ev : Evaluator ℝ} (hb : ∀ s z x r, ev M.domains.length s z x r = .ok r)
    {sch : Nat → Nat → List Nat} (hs : SchedOk M sch (M.npc * M.ndof)) {v0 : List ℝ} (h0 : M.value ev sch u z x = .ok v0) :
    (M.value (withBoundary M ev (loadBlocks M.dim M.c2n F normal rule.weight l)) sch u z x).Sat fun v =>
      v.length = M.nn * M.ndof ∧ ∀ q, at0 v q = at0 v0 q + blocksForce M F normal x l q := by
  have hlen : M.c2n.length = M.nc * (M.dim + 1) := by
    have := hM.mesh.length
    simpa [FeModel.npc] using this
  have hz' : ∀ q, scatteredVec M.npc M.ndof M.c2n none M.nc (fun _ _ => (0 : ℝ)) q = 0 := fun q => scatteredVec_zero q
  -- the assembled sum of the rows of the members
  let row : Nat → Nat → ℝ := fun c i => (l.map fun B =>
    bndRow Real.sqrt id M.dim B.Y M.c2n F normal (B.scale * rule.weight) (M.cellX x) B.bcs c i).sum
  have hrow : ∀ q, scatteredVec M.npc M.ndof M.c2n none M.nc row q = blocksForce M F normal x l q := by
    intro q
    show scatteredVec M.npc M.ndof M.c2n none M.nc (fun c i => (l.map fun B =>
      bndRow Real.sqrt id M.dim B.Y M.c2n F normal (B.scale * rule.weight) (M.cellX x) B.bcs c i).sum) q = _
    rw [scatteredVec_listSum l fun B c i =>
      bndRow Real.sqrt id M.dim B.Y M.c2n F normal (B.scale * rule.weight) (M.cellX x) B.bcs c i]
    unfold blocksForce
    congr 1
    exact List.map_congr_left fun B hB => scattered_block hd hr normal (hl B hB) (fun _ _ _ _ _ _ => rfl) q
  refine (withBoundary_value hM hb hu hz hx hs h0 (row := row) ?_).mono ?_
  · intro g g0 g1 g2 hg
    refine (loadBlocks_ok hd hr normal hlen g0 g1 g2 hg l hl _ rfl rfl).mono ?_
    rintro r ⟨r0, r1, hq⟩
    exact ⟨r0, r1, fun q => by rw [hq q, hz', zero_add, hrow q]⟩
  · rintro v ⟨hv, hq⟩
    exact ⟨hv, fun q => by rw [hq q, hrow q]⟩

/-- A parabolic residual with boundary conditions. -/
theorem blocks_parValue {v : List ℝ} (hv : v.length = M.nn * M.ndof) {ev : ParEvaluator ℝ} {row : ParRow ℝ}
    (h : ParRowEv M ev row) {sch : Nat → Nat → List Nat} (hs : ParSchedOk M sch (M.npc * M.ndof)) {v0 : List ℝ}
    (h0 : parValue M ev sch u v z x = .ok v0) :
    (parValue M (parWithBoundary M ev (loadBlocks M.dim M.c2n F normal rule.weight l)) sch u v z x).Sat fun r =>
      r.length = M.nn * M.ndof ∧ ∀ q, at0 r q = at0 v0 q + blocksForce M F normal x l q := by
  have e : parValue M (parWithBoundary M ev (loadBlocks M.dim M.c2n F normal rule.weight l)) sch u v z x =
      M.value (withBoundary M (rowEvaluator M (rowAtRate M row (cellVec M plainOf v)))
        (loadBlocks M.dim M.c2n F normal rule.weight l)) sch u z x := by
    refine overDomains_congr _ fun k y hk => ?_
    have hres : parResults M plainOf plainOf plainOf plainOf (parWithBoundary M ev (loadBlocks M.dim M.c2n F normal rule.weight l))
        (M.part k) k sch u v z x = M.cellResults plainOf plainOf plainOf (withBoundary M (rowEvaluator M (rowAtRate M row
          (cellVec M plainOf v))) (loadBlocks M.dim M.c2n F normal rule.weight l)) (M.part k) k sch u z x := by
      by_cases hkl : k < M.domains.length
      · have e1 : parResults M plainOf plainOf plainOf plainOf (parWithBoundary M ev (loadBlocks M.dim M.c2n F normal rule.weight l))
            (M.part k) k sch u v z x = parResults M plainOf plainOf plainOf plainOf ev (M.part k) k sch u v z x := by
          unfold parResults parWithBoundary
          simp only [if_pos hkl]
        have e2 : M.cellResults plainOf plainOf plainOf (withBoundary M (rowEvaluator M (rowAtRate M row
              (cellVec M plainOf v))) (loadBlocks M.dim M.c2n F normal rule.weight l)) (M.part k) k sch u z x =
            M.cellResults plainOf plainOf plainOf (rowEvaluator M (rowAtRate M row (cellVec M plainOf v))) (M.part k) k sch u z x := by
          unfold FeModel.cellResults withBoundary
          simp only [if_pos hkl]
        rw [e1, e2, parResults_rate hM h hu hv hz hx hs hk]
        rfl
      · obtain ⟨t, et, -⟩ := workset_ok (mk := plainOf) (ws := ⟨M.size (M.part k), M.npc * M.ndof, fun _ _ => 0⟩)
          hM.mesh (hM.domOk k) hv rfl rfl (hs.rate k hk)
        unfold parResults FeModel.cellResults parWithBoundary withBoundary
        simp only [et, Res.ok_bind, if_neg hkl]
    rw [hres]
  rw [e]
  rw [parValue_rate hM hu hv hz hx hs h] at h0
  refine blocks_value hM hd hr normal hl hu hz hx ?_ hs.toSched h0
  intro s z x r
  unfold rowEvaluator
  rw [FeModel.part, if_neg (lt_irrefl _)]

end

/-! ## Work and totals -/

/-- Work of the tractions or fluxes of a member on a nodal field: the surface integrals of traction times field. -/
noncomputable def surfaceWork (M : FeModel) (F : Faces) (normal : Nat → Nat → Nat → ℝ) (x : List ℝ) (Y : Layout)
    (bcs : List NaturalBC) (W : List ℝ) : ℝ :=
  (bcs.map fun B => (B.set.map fun face => ((F.cellsOf face).map fun cell =>
    faceIntegral M.dim (F.coords M.dim x face) fun ξ => ∑ k ∈ range Y.numDofs,
      B.traction M.dim F normal cell face k * faceField M.dim Y F W face k ξ).sum).sum).sum

/-- Total of component `k` of the tractions or fluxes: traction times area. -/
noncomputable def surfaceTotal (M : FeModel) (F : Faces) (normal : Nat → Nat → Nat → ℝ) (x : List ℝ)
    (bcs : List NaturalBC) (k : Nat) : ℝ :=
  (bcs.map fun B => (B.set.map fun face => ((F.cellsOf face).map fun cell =>
    B.traction M.dim F normal cell face k * faceArea M.dim (F.coords M.dim x face)).sum).sum).sum

theorem listSum_sum {α : Type} (l : List α) (f : α → Nat → ℝ) (s : Finset Nat) :
    ∑ q ∈ s, (l.map fun a => f a q).sum = (l.map fun a => ∑ q ∈ s, f a q).sum := by
  induction l with
  | nil => simp
  | cons a l ih =>
    simp only [List.map_cons, List.sum_cons, sum_add_distrib]
    rw [ih]

theorem blocksForce_work {M : FeModel} (hM : M.Ok) {F : Faces} (normal : Nat → Nat → Nat → ℝ) {l : List LoadBlock}
    (hl : ∀ B ∈ l, B.Ok M F) (x W : List ℝ) :
    ∑ q ∈ range (M.nn * M.ndof), blocksForce M F normal x l q * at0 W q =
      (l.map fun B => B.scale * surfaceWork M F normal x B.Y B.bcs W).sum := by
  unfold blocksForce
  rw [listSum_mul_sum]
  congr 1
  refine List.map_congr_left fun B hB => ?_
  have := C48_work (hl B hB).layout (hl B hB).bcs hM.mesh normal x W
  rw [(hl B hB).dofs] at this
  unfold surfaceWork
  rw [← this, mul_sum]
  exact sum_congr rfl fun q _ => by ring

theorem bndForce_total {M : FeModel} (hM : M.Ok) (hd0 : M.dim ≠ 0) {F : Faces} (normal : Nat → Nat → Nat → ℝ) {B : LoadBlock}
    (hB : B.Ok M F) (x : List ℝ) {k : Nat} (hk : k < B.Y.numDofs) :
    ∑ a ∈ range M.nn, bndForce M.dim B.Y F normal x B.bcs (M.ndof * a + (k + B.Y.offset)) =
      surfaceTotal M F normal x B.bcs k := by
  unfold bndForce surfaceTotal
  rw [listSum_sum]
  congr 1
  refine List.map_congr_left fun C hC => ?_
  rw [listSum_sum]
  congr 1
  refine List.map_congr_left fun face hface => ?_
  rw [listSum_sum]
  congr 1
  refine List.map_congr_left fun cell hcell => ?_
  have hF := hB.bcs.faces C hC
  have := C48_resultant (nn := M.nn) hd0 hB.layout (F := F) (face := face) (fun n hn => by
    obtain ⟨l1, l2⟩ := localOf_spec (hF.sub face hface cell hcell n hn)
    have := hM.mesh.node_lt (hF.cell face hface cell hcell) l1
    unfold FeModel.npc at this
    rw [l2] at this
    exact this) x (C.traction M.dim F normal cell face) hk
  rwa [hB.dofs] at this

/-- A member adds nothing to the unknowns of other members. -/
theorem bndForce_other {M : FeModel} {F : Faces} (normal : Nat → Nat → Nat → ℝ) {B : LoadBlock} (hB : B.Ok M F) (x : List ℝ)
    {a i : Nat} (hi : i < M.ndof) (h : i < B.Y.offset ∨ B.Y.offset + B.Y.numDofs ≤ i) :
    bndForce M.dim B.Y F normal x B.bcs (M.ndof * a + i) = 0 := by
  have hz : ∀ face t, faceForce M.dim B.Y F x face t (M.ndof * a + i) = 0 := by
    intro face t
    unfold faceForce
    refine sum_eq_zero fun n _ => sum_eq_zero fun k hk => if_neg fun e => ?_
    have hk := mem_range.1 hk
    have hL := hB.layout
    rw [hB.dofs] at e hL
    have e' := congrArg (· % M.ndof) e
    simp only [Nat.mul_add_mod] at e'
    rw [Nat.mod_eq_of_lt hi, Nat.mod_eq_of_lt (by omega)] at e'
    omega
  unfold bndForce
  simp [hz]

end Plato.HeatBnd
