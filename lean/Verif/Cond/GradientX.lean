import Verif.Cond.Gradient
import Verif.Mech.LoadFalse

/-!
# C85: the gradient by the coordinates is written outside of its vector
-/

namespace Plato.Cond
open Finset Plato Plato.Mech Plato.J2 Plato.Plast

/-- An atomic addition outside of the vector makes the assembly undefined, in every order. -/
theorem runAtomics_ub {ops : List (Nat × ℝ)} {order : List Nat} (ho : ∀ t ∈ order, t < ops.length) {v : List ℝ}
    (hb : ∃ t ∈ order, ∃ op, ops[t]? = some op ∧ v.length ≤ op.1) : runAtomics order ops v = Res.ub := by
  unfold runAtomics
  induction order generalizing v with
  | nil => obtain ⟨t, ht, -⟩ := hb; cases ht
  | cons t order ih =>
    show ((do
      let op ← rd ops t
      atomicAdd v op.1 op.2 : Res (List ℝ)) >>= fun s' => parFor order s' _) = _
    have ht := ho t List.mem_cons_self
    rw [show rd ops t = Res.ok ops[t] by unfold rd; rw [List.getElem?_eq_getElem ht], Res.ok_bind]
    unfold atomicAdd
    by_cases h : ops[t].1 < v.length
    · rw [rd_at0 h, Res.ok_bind, wr_eq h, Res.ok_bind]
      refine ih (fun t ht => ho t (List.mem_cons_of_mem _ ht)) ?_
      obtain ⟨t', ht', op, e, hop⟩ := hb
      refine ⟨t', ?_, op, e, by rw [List.length_set]; exact hop⟩
      rcases List.mem_cons.1 ht' with rfl | h'
      · rw [List.getElem?_eq_getElem ht] at e
        cases e
        omega
      · exact h'
    · rw [show rd v ops[t].1 = Res.ub by unfold rd; rw [List.getElem?_eq_none (by omega)]]
      rfl

/-- Assembling into a vector that has no entry for a node of some cell. -/
theorem assembleResidual_ub {npc d nc n : Nat} {c2n : List Nat} (hm : Mesh c2n npc nc n) (hd : 0 < d) {ws : View2 ℝ}
    {v : List ℝ} {order : List Nat} (h0 : nc ≤ ws.n0) (h1 : npc * d ≤ ws.n1) (ho : IsSchedule order (nc * (npc * d)))
    {c a : Nat} (hc : c < nc) (ha : a < npc) (hv : v.length ≤ cellNode npc c2n c a * d) :
    assembleResidual npc d c2n none nc ws order v = Res.ub := by
  unfold assembleResidual
  rw [residualOps_eq hm (domOk_none nc) h0 h1, Res.ok_bind]
  set ops := opsList nc npc d (fun c a k => cellNode npc c2n (gcell none c) a * d + k) (fun c a k => ws.data c (a * d + k)) with hops
  have hlen : ops.length = nc * (npc * d) := opsList_length ..
  have hmem : (cellNode npc c2n c a * d + 0, ws.data c (a * d + 0)) ∈ ops := by
    rw [hops]
    unfold opsList
    refine List.mem_flatMap.2 ⟨c, List.mem_range.2 hc, List.mem_flatMap.2 ⟨a, List.mem_range.2 ha, List.mem_flatMap.2 ⟨0, List.mem_range.2 hd, List.mem_singleton.2 rfl⟩⟩⟩
  refine runAtomics_ub (fun t ht => by rw [hlen]; exact List.mem_range.1 (ho.mem_iff.1 ht)) ?_
  obtain ⟨t, ht, e⟩ := List.getElem_of_mem hmem
  refine ⟨t, ho.mem_iff.2 (List.mem_range.2 (hlen ▸ ht)), _, List.getElem?_eq_getElem ht, ?_⟩
  rw [e]
  exact hv

/-- The derivatives by the coordinates that the methods return. -/
structure ConfigOk (M : FeModel) (nl : Nat) (E : Eqs) (P : ProjEq) (A : FState) (RX PX HX : Nat → Nat → Nat → ℝ) : Prop where
  rX : (E.rX A.g A.step).Sat (Is3 M.nc (ng M) (M.npc * M.dim) RX)
  pX : (P.pX A.g.n A.press A.g.loc.z A.step).Sat (Is3 M.nc (M.npc * M.dim) (M.npc * M.dim) PX)
  hX : (E.hX A.g.loc A.step).Sat (Is3 M.nc nl (M.npc * M.dim) HX)

section
variable {M : FeModel} (hM : M.Ok) (hnc : 0 < M.nc) {nl : Nat} (hnl : 0 < nl) {S : Sched} (hS : S.Ok M)
  {E : Eqs} {P : ProjEq} {A : FState} {RX PX HX : Nat → Nat → Nat → ℝ} (hX : ConfigOk M nl E P A RX PX HX) {a : Adj} (ha : a.Ok M nl)
include hM hnc hnl hS hX ha

theorem configProducts_ok : (pdeProducts M nl S (M.npc * M.dim) (E.rX A.g A.step) (P.pX A.g.n A.press A.g.loc.z A.step)
    (E.hX A.g.loc A.step) a).Sat (Is2 M.nc (M.npc * M.dim) fun c m => ∑ l ∈ range (ng M), RX c l m * at0 a.lam (dof M c l) +
        ∑ l ∈ range (M.npc * M.dim), PX c l m * at0 a.gam (pdof M c l) +
        ∑ j ∈ range nl, HX c j m * at0 a.mu (c * nl + j)) := by
  have hn : 0 < M.npc := by unfold FeModel.npc; omega
  have hp : 0 < M.npc * M.dim := Nat.mul_pos hn hM.dim
  unfold pdeProducts
  refine Res.Sat.bind (lamWs_ok hM hS 27 ha.lam) fun lam h1 => ?_
  refine Res.Sat.bind hX.rX fun r h2 => ?_
  refine Res.Sat.bind (mtvT_ok (hS.cell 28) hnc (ng_pos hM) hp h2 h1 (Is2.zero _ _)) fun g h3 => ?_
  refine Res.Sat.bind (gamWs_ok hM hS 29 ha.gam) fun gam h4 => ?_
  refine Res.Sat.bind hX.pX fun p h5 => ?_
  refine Res.Sat.bind (mtvT_ok (hS.cell 30) hnc hp hp h5 h4 h3) fun g h6 => ?_
  refine Res.Sat.bind (muWs_ok hS 31 ha.mu) fun mu h7 => ?_
  refine Res.Sat.bind hX.hX fun h h8 => ?_
  refine (mtvT_ok (hS.cell 32) hnc hnl hp h8 h7 h6).mono fun _ k => k.congr fun c m _ _ => ?_
  ring

/-- **C84, coordinates**: with a vector that has an entry for every coordinate of the mesh, the products with the
derivatives by the coordinates are added. -/
theorem C84_configuration (hg : IsSchedule S.grad (M.nc * (M.npc * M.dim))) {g : List ℝ} (hl : g.length = M.nn * M.dim) :
    (addPdeX M nl E S P A a g).Sat fun g' => g'.length = M.nn * M.dim ∧ ∀ q, at0 g' q = at0 g q +
      scatteredVec M.npc M.dim M.c2n none M.nc (fun c m => ∑ l ∈ range (ng M), RX c l m * at0 a.lam (dof M c l) +
        ∑ l ∈ range (M.npc * M.dim), PX c l m * at0 a.gam (pdof M c l) + ∑ j ∈ range nl, HX c j m * at0 a.mu (c * nl + j)) q := by
  unfold addPdeX
  refine Res.Sat.bind (configProducts_ok hM hnc hnl hS hX ha) ?_
  rintro w ⟨w0, w1, w2⟩
  refine (C08_assembleResidual (ws := V2.view w) hM.mesh (domOk_none _) hl w0.ge w1.ge hg).mono ?_
  rintro v ⟨v0, v1⟩
  refine ⟨v0, fun q => ?_⟩
  rw [v1 q]
  congr 1
  exact scatteredVec_congr (fun c m hc hm => w2 c m hc hm) q

/-- With the vector that the problem allocates it writes outside, as soon as a cell has a node with a number of at
least the number of nodes of a cell. -/
theorem addPdeX_ub (hg : IsSchedule S.grad (M.nc * (M.npc * M.dim))) {g : List ℝ} (hl : g.length = M.npc * M.dim)
    {c b : Nat} (hc : c < M.nc) (hb : b < M.npc) (hbig : M.npc ≤ cellNode M.npc M.c2n c b) :
    addPdeX M nl E S P A a g = Res.ub := by
  unfold addPdeX
  obtain ⟨w, e, w0, w1, -⟩ := configProducts_ok hM hnc hnl hS hX ha
  rw [e, Res.ok_bind]
  exact assembleResidual_ub hM.mesh hM.dim (ws := V2.view w) w0.ge w1.ge hg hc hb (hl ▸ Nat.mul_le_mul_right _ hbig)

end

/-- **C85, refuted for the coordinates**: on a mesh with more nodes than a cell has, `criterionGradientX` never returns,
for every linear solver, all schedules and all states. -/
theorem C85_configuration_false {M : FeModel} (hM : M.Ok) (hG : Graph M) (hnc : 0 < M.nc) {nl : Nat} (hnl : 0 < nl) {E : Eqs}
    {C : Cri} {P : ProjEq} {off n : Nat} (hn : 0 < n) (hoff : off < M.ndof) {FS : Nat → FState} {fZ : Nat → Res (V2 ℝ)}
    {Q : Nat → Step} (hH : Hist M nl E C P off n FS fZ Q) {RX PX HX : Nat → Nat → Nat → ℝ}
    (hX : ConfigOk M nl E P (FS (n - 1)) RX PX HX) {Sk : Nat → Sched} (hS : (Sk (n - 1)).Ok M)
    (hS5 : IsSchedule ((Sk (n - 1)).dofs 5) (M.nc * nl)) (hg : IsSchedule (Sk (n - 1)).grad (M.nc * (M.npc * M.dim)))
    {ls : Crs ℝ → List ℝ → List ℝ → Res (List ℝ)} (hls : Solver ls) {D : Bcs} (hD : D.Ok M)
    {c b : Nat} (hc : c < M.nc) (hb : b < M.npc) (hbig : M.npc ≤ cellNode M.npc M.c2n c b) (fX : Nat → Res (V2 ℝ)) (g : List ℝ) :
    criterionGradientX M nl E C P off ls D Sk n FS fX ≠ .ok g := by
  obtain ⟨k, rfl⟩ : ∃ k, n = k + 1 := ⟨n - 1, by omega⟩
  rw [Nat.add_sub_cancel] at hX hS hS5 hg
  intro h
  suffices hp : Post (criterionGradientX M nl E C P off ls D Sk (k + 1) FS fX) fun _ => False from hp g h
  unfold criterionGradientX backward
  refine Post.bind (P := fun _ => False) ?_ fun _ h => h.elim
  rw [List.range_succ, List.reverse_append, List.reverse_singleton, List.singleton_append, List.foldlM_cons, Nat.add_sub_cancel]
  refine Post.bind (P := fun _ => False) ?_ fun _ h => h.elim
  have hk : k < k + 1 := Nat.lt_succ_self k
  let S' : Sched := { Sk k with grad := List.range (M.nc * (M.npc * 1)) }
  have hS' : S'.Ok2 M nl := ⟨⟨hS.cell, hS.dofs, hS.dofs4, hS.create, hS.rows, hS.prod, hS.jac, hS.vec⟩, hS5, List.Perm.refl _⟩
  unfold sweepStep
  refine Post.bind (Post.of (copyAdjoint_ok (S := S') hM hnc hnl hS' (zeroAdj_ok M nl) (zeroAdj_ok M nl))) ?_
  rintro bb ⟨hbb, -, -, -⟩
  refine Post.bind (Post.of (C84_adjoint_step hM hnc hnl hS (hH.jac k hk) (hH.cri k hk) (P := P) (N := (Q (k + 1)).N)
    (B := FS (k + 1)) (last := k) (fun h => absurd (hH.step k hk) h) hbb hoff ⟨rfl, rfl, rfl⟩ (hH.lead k hk))) ?_
  rintro ⟨inv, K, f⟩ ⟨K0, K1, K2, f0, Kr, hinv, hloc⟩
  dsimp only at K0 K1 K2 f0 Kr hinv hloc ⊢
  have hK := C09_created K0 K1 K2 Kr hG.nodup hG.symm
  refine Post.bind (globalAdjoint_ok hS hls hD hK f0 (zeroAdj_ok M nl).lam) ?_
  rintro lam ⟨lam0, -, -⟩
  refine Post.bind (Post.of (hloc lam (zeroAdj M nl).mu lam0 (zeroAdj_ok M nl).mu)) ?_
  rintro mu ⟨mu0, -, -⟩
  refine Post.bind (Post.of (projAdjoint_ok (S := S') (Q := Q k) hM hnc hnl hS' hoff (fun h => hH.proj k hk (by rwa [hH.step k hk] at h)) lam0
    (zeroAdj_ok M nl).gam)) ?_
  rintro gam ⟨gam0, -, -⟩
  refine Post.bind (P := fun _ => False) ?_ fun _ h => h.elim
  show Post (addPdeX M nl E (Sk k) P (FS k) ⟨lam, mu, gam⟩ (List.replicate (M.npc * M.dim) 0)) _
  rw [addPdeX_ub hM hnc hnl hS hX ⟨lam0, mu0, gam0⟩ hg (by rw [List.length_replicate]) hc hb hbig]
  intro _ h
  cases h

end Plato.Cond
