import Verif.Plast.Work
import Verif.Bnd.Value

/-!
# C71: the residual of plasticity on a mesh
-/

namespace Plato.Plast
open Finset Plato Plato.Mech Plato.Thermal Plato.J2 Plato.Dyn
open Plato.Tm (fluxRow heatRow unknown sum_unknown)
open Plato.Bnd hiding Add

/-! ## Loads on the boundary -/

section Bnd
variable {M : FeModel} (hM : M.Ok) {Y : Layout} (hY : Y.numDofs + Y.offset ≤ Y.dofsPerNode)
  (hYn : Y.dofsPerNode = M.ndof) (hd : M.dim = 1 ∨ M.dim = 2 ∨ M.dim = 3) {F : Faces} {bcs : List NaturalBC}
  (hB : BCsOk M.dim M.nc M.c2n F bcs) (normal : Nat → Nat → Nat → ℝ) (scale : ℝ) {rule : CubRule ℝ}
  (hr : linearTetCubRule M.dim = .ok rule) {x : List ℝ}

include hM hY hYn hd hB in
theorem naturalBCs_mesh (cub : ℝ) (init : Nat → Nat → Nat → Nat) {orders : Nat → List Nat}
    (ho : ∀ b B, bcs[b]? = some B → IsSchedule (orders b) B.set.length) {g : V3 ℝ} (g0 : g.d0 = M.nc)
    (g1 : g.d1 = M.npc) (g2 : g.d2 = M.dim)
    (g3 : ∀ c a k, c < M.nc → a < M.npc → k < M.dim → g.e c a k = M.cellX x c a k) {r : V2 ℝ} (r0 : r.d0 = M.nc)
    (r1 : r.d1 = M.npc * M.ndof) :
    naturalBCs Real.sqrt id M.dim Y M.c2n F normal scale cub init orders g bcs r = .ok ⟨r.d0, r.d1, fun c i =>
      r.e c i + bndRow Real.sqrt id M.dim Y M.c2n F normal (scale * cub) (M.cellX x) bcs c i⟩ := by
  have hlen : M.c2n.length = M.nc * (M.dim + 1) := by
    have := hM.mesh.length
    simpa [FeModel.npc] using this
  rw [naturalBCs_ok Real.sqrt id hd hY hlen hB normal scale cub init ho g0.ge g1 g2 r0.ge
    (by rw [hYn, r1]; exact le_rfl)]
  congr 2
  funext c i
  congr 1
  unfold bndRow
  congr 1
  refine List.map_congr_left fun B hBm => ?_
  congr 1
  refine List.map_congr_left fun face hface => ?_
  congr 1
  unfold faceAddsOf
  rw [List.flatMap_def, List.flatMap_def]
  congr 1
  refine List.map_congr_left fun cell hcell => ?_
  have hF := hB.faces B hBm
  have hc := hF.cell face hface cell hcell
  have hsub := hF.sub face hface cell hcell
  rw [weightForm_congr Real.sqrt hd _ fun n k hn hk => g3 cell _ k hc (localOf_spec (hsub n hn)).1 hk]
  rfl

include hY hYn hd hB hr in
theorem bndRow_scattered (q : Nat) :
    scatteredVec M.npc M.ndof M.c2n none M.nc (bndRow Real.sqrt id M.dim Y M.c2n F normal (scale * rule.weight)
      (M.cellX x) bcs) q = scale * bndForce M.dim Y F normal x bcs q := by
  unfold bndRow bndForce
  rw [scatteredVec_listSum bcs (fun B c i => (B.set.map fun face =>
    addedAt (faceAddsOf Real.sqrt M.dim Y M.c2n F (scale * rule.weight) (B.term id M.dim F normal) (M.cellX x) face)
      (c, i)).sum), ← List.sum_map_mul_left]
  congr 1
  refine List.map_congr_left fun B hBm => ?_
  rw [scatteredVec_listSum B.set (fun face c i =>
    addedAt (faceAddsOf Real.sqrt M.dim Y M.c2n F (scale * rule.weight) (B.term id M.dim F normal) (M.cellX x) face)
      (c, i)), ← List.sum_map_mul_left]
  congr 1
  refine List.map_congr_left fun face hface => ?_
  rw [cubWeight_eq hd hr]
  exact scattered_face hY hYn hd (hB.faces B hBm) normal scale B (fun _ _ _ _ _ _ => rfl) hface q

end Bnd

/-- What the loads on the boundary need. -/
structure LoadsOk (M : FeModel) (P : Plast ℝ) (B : Loads) : Prop where
  mech : BCsOk M.dim M.nc M.c2n B.F B.mech
  heat : BCsOk M.dim M.nc M.c2n B.F B.heat
  cub : ∃ rule, linearTetCubRule M.dim = .ok rule ∧ B.cub = rule.weight
  orders : ∀ b C, B.mech[b]? = some C → IsSchedule (B.orders b) C.set.length
  ordersT : ∀ b C, B.heat[b]? = some C → IsSchedule (B.ordersT b) C.set.length
  pressure : P.mat.thermal = false → ∀ C ∈ B.mech, pressureOn C = false

/-- Forces and heat that enter through the boundary. -/
noncomputable def boundaryForce (M : FeModel) (P : Plast ℝ) (B : Loads) (x : List ℝ) (q : Nat) : ℝ :=
  bndForce M.dim (mechLayout P) B.F B.normal x B.mech q +
    if P.mat.thermal then bndForce M.dim (heatLayout P) B.F B.normal x B.heat q else 0

section Value
variable {M : FeModel} (hM : M.Ok) {P : Nat → Plast ℝ} (h : POk M P) (h0 : 0 < M.domains.length) {B : Loads}
  (hB : LoadsOk M (P 0) B) (x : List ℝ)

include hM h h0 hB in
theorem boundary_ok {g : V3 ℝ} (g0 : g.d0 = M.nc) (g1 : g.d1 = M.npc) (g2 : g.d2 = M.dim)
    (g3 : ∀ c a k, c < M.nc → a < M.npc → k < M.dim → g.e c a k = M.cellX x c a k) :
    (boundary (P 0) M.c2n B g ⟨M.nc, M.npc * M.ndof, fun _ _ => 0⟩).Sat fun (r : V2 ℝ) => r.d0 = M.nc ∧
      r.d1 = M.npc * M.ndof ∧ ∀ q, scatteredVec M.npc M.ndof M.c2n none M.nc r.e q =
        -(P 0).load * boundaryForce M (P 0) B x q := by
  have hdk : (P 0).d = M.dim := h.j.d 0 h0
  have hnk : (P 0).ndof = M.ndof := h.j.ndof 0 h0
  have hd : M.dim = 1 ∨ M.dim = 2 ∨ M.dim = 3 := .inr h.j.dim
  have hle := (P 0).le_ndof
  obtain ⟨rule, hr, hw⟩ := hB.cub
  unfold boundary
  rw [if_neg (fun hc => by
    obtain ⟨C, hC, hp⟩ := List.any_eq_true.1 hc.2
    rw [hB.pressure hc.1 C hC] at hp
    exact Bool.noConfusion hp)]
  rw [hdk, hw]
  have hY1 : (mechLayout (P 0)).numDofs + (mechLayout (P 0)).offset ≤ (mechLayout (P 0)).dofsPerNode := by
    unfold mechLayout
    split <;> simp <;> exact hle
  have hYn1 : (mechLayout (P 0)).dofsPerNode = M.ndof := by unfold mechLayout; split <;> exact hnk
  rw [naturalBCs_mesh hM hY1 hYn1 hd hB.mech B.normal (-1 * (P 0).load) (x := x) rule.weight B.init hB.orders g0 g1 g2 g3 rfl
    rfl, Res.ok_bind]
  by_cases hT : (P 0).mat.thermal = true
  · have hY2 : (heatLayout (P 0)).numDofs + (heatLayout (P 0)).offset ≤ (heatLayout (P 0)).dofsPerNode := by
      show 1 + (P 0).d ≤ (P 0).ndof
      unfold Plast.ndof J2.ndof
      rw [if_pos hT]
      show 1 + (P 0).mat.d ≤ (P 0).mat.d + 2
      omega
    rw [if_pos hT, naturalBCs_mesh hM hY2 hnk hd hB.heat B.normal (-1 * (P 0).load) (x := x) rule.weight B.initT hB.ordersT g0 g1
      g2 g3 rfl rfl, Res.sat_ok]
    refine ⟨rfl, rfl, fun q => ?_⟩
    have e : ∀ a b : Nat → Nat → ℝ, scatteredVec M.npc M.ndof M.c2n none M.nc (fun c i => 0 + a c i + b c i) q =
        scatteredVec M.npc M.ndof M.c2n none M.nc a q + scatteredVec M.npc M.ndof M.c2n none M.nc b q := by
      intro a b
      rw [← scatteredVec_add]
      exact scatteredVec_congr (fun c l _ _ => by rw [zero_add]) q
    dsimp only
    rw [e, bndRow_scattered hY1 hYn1 hd hB.mech B.normal _ hr, bndRow_scattered hY2 hnk hd hB.heat B.normal _ hr]
    unfold boundaryForce
    rw [if_pos hT]
    ring
  · rw [if_neg hT, Res.pure_eq, Res.sat_ok]
    refine ⟨rfl, rfl, fun q => ?_⟩
    have e : ∀ a : Nat → Nat → ℝ, scatteredVec M.npc M.ndof M.c2n none M.nc (fun c i => 0 + a c i) q =
        scatteredVec M.npc M.ndof M.c2n none M.nc a q :=
      fun a => scatteredVec_congr (fun c l _ _ => by rw [zero_add]) q
    dsimp only
    rw [e, bndRow_scattered hY1 hYn1 hd hB.mech B.normal _ hr]
    unfold boundaryForce
    rw [if_neg hT]
    ring

end Value

/-! ## Virtual work -/

/-- Numbers of a cell. -/
noncomputable def gNumbers (M : FeModel) (A : GArgs ℝ) (cell : Nat) : GData ℝ := gData M (localDofs M.dim) plainG A cell

/-- Work of the stress, pressure and heat flux in all cells. -/
noncomputable def innerWork (M : FeModel) (P : Nat → Plast ℝ) (pow23 : ℝ → ℝ) (A : GArgs ℝ) (w : Nat → ℝ) : ℝ :=
  ∑ k ∈ range M.domains.length, ∑ c ∈ range (dom M k).length,
    (P k).cellWork pow23 (gNumbers M A (atN (dom M k) c)).loc.u (gNumbers M A (atN (dom M k) c)).loc.c
      (gNumbers M A (atN (dom M k) c)).n (gNumbers M A (atN (dom M k) c)).loc.z (gNumbers M A (atN (dom M k) c)).loc.x
      (dofs M w (atN (dom M k) c))

/-- Work of the body loads, which each domain multiplies with its load control constant. -/
noncomputable def bodyWork (M : FeModel) (P : Nat → Plast ℝ) (A : GArgs ℝ) (w : Nat → ℝ) : ℝ :=
  ∑ k ∈ range M.domains.length, ∑ c ∈ range (dom M k).length,
    (P k).load * ((P k).bodyLoads.map fun L => cellLoad L M.dim M.ndof c (atN (dom M k) c)
      (gNumbers M A (atN (dom M k) c)).loc.z (dofs M w (atN (dom M k) c))).sum

/-- Work of the loads on the boundary. -/
noncomputable def boundaryWork (M : FeModel) (P : Nat → Plast ℝ) (B : Loads) (A : GArgs ℝ) (w : Nat → ℝ) : ℝ :=
  (P 0).load * ∑ q ∈ range (M.nn * M.ndof), boundaryForce M (P 0) B A.loc.x q * w q

/-- The residual of plasticity. -/
noncomputable def plastResidual (M : FeModel) (P : Nat → Plast ℝ) (pow23 : ℝ → ℝ) (B : Loads)
    (init : Nat → Nat → Nat → Nat) (eR sch : Nat → Nat → List Nat) (A : GArgs ℝ) : Res (List ℝ) :=
  globalValue M (localDofs M.dim) (plastEv (fun a => |a|) pow23 M P init eR) (boundary (P 0) M.c2n B) sch A

/-- **C71 fails for pressures** in problems without temperature: with a pressure on a side set that is not empty the
residual is not computed (a component of the normal that does not exist is read). -/
theorem C71_pressure_false {M : FeModel} {P : Nat → Plast ℝ} (pow23 : ℝ → ℝ) {B : Loads}
    (init : Nat → Nat → Nat → Nat) (eR sch : Nat → Nat → List Nat) (A : GArgs ℝ) (ht : (P 0).mat.thermal = false)
    {s : List Nat} {v : Nat → ℝ} (hs : s ≠ []) (hp : .pressure s v ∈ B.mech) (r : List ℝ) :
    plastResidual M P pow23 B init eR sch A ≠ .ok r := by
  have hb : ∀ g f, boundary (P 0) M.c2n B g f = Res.ub := fun g f => by
    unfold boundary
    rw [if_pos ⟨ht, List.any_eq_true.2 ⟨_, hp, by cases s with | nil => exact absurd rfl hs | cons => rfl⟩⟩]
  intro he
  unfold plastResidual globalValue at he
  revert he
  generalize overCells M _ _ = a
  cases a with
  | err m => intro he; cases he
  | ub => intro he; cases he
  | ok a =>
    rw [Res.ok_bind]
    generalize globalWs M (localDofs M.dim) plainG (List.range M.nc) (sch M.domains.length) A = w
    cases w with
    | err m => intro he; cases he
    | ub => intro he; cases he
    | ok w =>
      rw [Res.ok_bind, hb]
      intro he
      cases he

section Work
variable {M : FeModel} (hM : M.Ok) {P : Nat → Plast ℝ} (h : POk M P) (pow23 : ℝ → ℝ) {B : Loads} (hB : LoadsOk M (P 0) B)
  (init : Nat → Nat → Nat → Nat) {eR : Nat → Nat → List Nat} (he : EvSched M eR) {A : GArgs ℝ}
  (hA : A.Ok M (localDofs M.dim)) {sch : Nat → Nat → List Nat} (hs : WsSched M sch) (ha : AddSched M (M.npc * M.ndof) sch)
include hM h hB he hA hs ha

/-- **C71**: on all virtual displacements, temperatures and pressures the residual of plasticity does the work
of stress, pressure and heat flux less that of the loads, for every order of the loops. -/
theorem C71_work : (plastResidual M P pow23 B init eR sch A).Sat fun r => r.length = M.nn * M.ndof ∧ ∀ w : Nat → ℝ,
    ∑ q ∈ range (M.nn * M.ndof), at0 r q * w q =
      innerWork M P pow23 A w - bodyWork M P A w - boundaryWork M P B A w := by
  have h0 : 0 < M.domains.length := List.length_pos_of_ne_nil hM.some_domain
  -- row of the boundary, from one run of the code
  have hrow : ∃ row : Nat → Nat → ℝ, (∀ q, scatteredVec M.npc M.ndof M.c2n none M.nc row q =
      -(P 0).load * boundaryForce M (P 0) B A.loc.x q) := by
    obtain ⟨r, -, -, -, hq⟩ := boundary_ok hM h h0 hB A.loc.x (g := ⟨M.nc, M.npc, M.dim, M.cellX A.loc.x⟩) rfl rfl rfl
      fun _ _ _ _ _ _ => rfl
    exact ⟨r.e, hq⟩
  obtain ⟨row, hrow⟩ := hrow
  refine (value_work hM (plastEv_rowAdd (fun a => |a|) pow23 h init he) hA hs ha (row := row)
    fun g g0 g1 g2 g3 => (boundary_ok hM h h0 hB A.loc.x g0 g1 g2 g3).mono fun r hr =>
      ⟨hr.1, hr.2.1, fun q => (hr.2.2 q).trans (hrow q).symm⟩).mono ?_
  rintro r ⟨hl, hw⟩
  refine ⟨hl, fun w => ?_⟩
  rw [hw w, sub_eq_add_neg _ (boundaryWork M P B A w)]
  congr 1
  · unfold innerWork bodyWork
    rw [← sum_sub_distrib]
    refine sum_congr rfl fun k hk => ?_
    rw [← sum_sub_distrib]
    refine sum_congr rfl fun c hc => ?_
    have hk' := mem_range.1 hk
    have hdk : (P k).d = M.dim := h.j.d k hk'
    have hnk : (P k).ndof = M.ndof := h.j.ndof k hk'
    have hd : (P k).d = 2 ∨ (P k).d = 3 := by rw [hdk]; exact h.j.dim
    have hL : ∀ L ∈ (P k).bodyLoads, L.dof < M.ndof := fun L hL => (h.loads k hk' L hL).dof
    have e1 := solidRow_work hd pow23 (gNumbers M A (atN (dom M k) c)).loc.u (gNumbers M A (atN (dom M k) c)).loc.c
      (gNumbers M A (atN (dom M k) c)).n (gNumbers M A (atN (dom M k) c)).loc.z (gNumbers M A (atN (dom M k) c)).loc.x
      (dofs M w (atN (dom M k) c))
    have e2 := loads_pair (d := M.dim) hL c (atN (dom M k) c) (gNumbers M A (atN (dom M k) c)).loc.z
      (dofs M w (atN (dom M k) c)) (P k).load
    rw [← e1, hdk, hnk, sub_eq_add_neg, ← neg_mul, ← e2, ← sum_add_distrib]
    refine sum_congr rfl fun l _ => ?_
    rw [← add_mul]
    congr 1
    show _ = (P k).solidRow _ _ _ _ _ _ _ l + _
    unfold rowAt plastRow Plast.row Plast.loadRow
    rw [hdk, hnk]
    rfl
  · unfold boundaryWork
    simp only [hrow]
    rw [mul_sum, ← sum_neg_distrib]
    exact sum_congr rfl fun q _ => by ring

end Work

end Plato.Plast
