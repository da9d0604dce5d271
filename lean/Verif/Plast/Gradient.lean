import Verif.Plast.Track

/-!
# C72: the seven derivatives of the residual of plasticity
-/

namespace Plato.Plast
open Finset Plato Plato.Mech Plato.Thermal Plato.J2 Plato.Dyn

section
variable {M : FeModel} (hM : M.Ok) {P : Nat → Plast ℝ} (h : POk M P) {pow23 : ℝ → ℝ} {B : Loads}
  (hL : LoadsOk M (P 0) B) (init : Nat → Nat → Nat → Nat) {pE pP pF : Nat → Fad → Fad} {powF : Fad → Fad}
  (hB : Blocks M)

/-- All arguments but one are constant: makers of the worksets, one seeded. -/
noncomputable def seeds (j : Nat) : GMakers ℝ Fad where
  loc := ⟨if j = 0 then seedOf else constOf, if j = 1 then seedOf else constOf, if j = 2 then seedOf else constOf,
    if j = 3 then seedOf else constOf, if j = 4 then seedOf else constOf, if j = 5 then seedOf else constOf⟩
  n := if j = 6 then seedOf else constOf

/-- The matrices `J` of the cells are the derivative of the residual `res` at `x`: added up over the cells they give the
derivative of every linear combination of its entries.  `at' cell l` is the number of the argument that column `l` of the
matrix of a cell belongs to. -/
def IsGradient {m : Nat} (M : FeModel) (res : (Fin m → ℝ) → Nat → ℝ) (cols : Nat) (at' : Nat → Nat → Nat) (J : V3 ℝ)
    (x : Fin m → ℝ) : Prop :=
  ∀ w : Nat → ℝ, HasFDerivAt (fun y => ∑ q ∈ range (M.nn * M.ndof), res y q * w q)
    (∑ cell ∈ range M.nc, ∑ i ∈ range (M.npc * M.ndof), w (cellDof M.npc M.ndof M.c2n cell i) •
      ∑ l ∈ range cols, J.e cell i l • coord m (at' cell l)) x

variable {m : Nat} {x : Fin m → ℝ} {a : (Fin m → ℝ) → GArgs ℝ}
  (hA : ∀ y, (a y).Ok M (localDofs M.dim)) {mk : GMakers ℝ Fad} {cols : Nat} {at' : Nat → Nat → Nat}
  (hF : ∀ cell, GFollows M (localDofs M.dim) (fun l => coord m (at' cell l)) cols x
    (gData M (localDofs M.dim) mk (a x) cell) fun y => gNumbers M (a y) cell)
  (hR : EachCell M fun k cell => Regular (P k) (pF k) powF pow23 (gNumbers M (a x) cell))
  {eR : (Fin m → ℝ) → Nat → Nat → List Nat} (he : ∀ y, EvSched M (eR y)) {sch : (Fin m → ℝ) → Nat → Nat → List Nat}
  (hs : ∀ y, WsSched M (sch y)) (ha : ∀ y, AddSched M (M.npc * M.ndof) (sch y))
  {eF : Nat → Nat → List Nat} (heF : EvSched M eF) {schF : Nat → Nat → List Nat} (hsF : GSched M schF)

include hM h hL hB hA hF hR he hs ha heF hsF

theorem gradient_const (hcol : cols ≠ 0) (hx : ∀ y, (a y).loc.x = (a x).loc.x) :
    ∃ (r : (Fin m → ℝ) → List ℝ) (J : V3 ℝ), (∀ y, plastResidual M P pow23 B init (eR y) (sch y) (a y) = .ok (r y) ∧
      (r y).length = M.nn * M.ndof) ∧
      globalGradient M (localDofs M.dim) cols mk (plastF powF M P pE pP pF init eF) schF (a x) = .ok J ∧
      IsGradient M (fun y q => at0 (r y) q) cols at' J x := by
  obtain ⟨r, J, h1, h2, h3⟩ := plast_gradient (pE := pE) (pP := pP) hM h hL init hA hF hR he hs ha hB hcol heF hsF
  refine ⟨r, J, h1, h2, fun w => ?_⟩
  have e : ∀ y, boundaryWork M P B (a y) w = boundaryWork M P B (a x) w := fun y => by
    unfold boundaryWork; rw [hx y]
  have := (h3 w).sub_const (boundaryWork M P B (a x) w)
  simp only [e, add_sub_cancel_right] at this
  exact this

end

section Seven
variable {M : FeModel} (hM : M.Ok) {P : Nat → Plast ℝ} (h : POk M P) {pow23 : ℝ → ℝ} {B : Loads}
  (hL : LoadsOk M (P 0) B) (init : Nat → Nat → Nat → Nat) {pE pP pF : Nat → Fad → Fad} {powF : Fad → Fad}
  (hB : Blocks M) {A : GArgs ℝ} (hA : A.Ok M (localDofs M.dim)) {eR : Nat → Nat → List Nat} (he : EvSched M eR)
  {sch : Nat → Nat → List Nat} (hs : WsSched M sch) (ha : AddSched M (M.npc * M.ndof) sch)
  {eF : Nat → Nat → List Nat} (heF : EvSched M eF) {schF : Nat → Nat → List Nat} (hsF : GSched M schF)
include hM h hL hB hA he hs ha heF hsF

/-- **C72**, derivative by the global state. -/
theorem C72_gradient_u {u : Fin (M.nn * M.ndof) → ℝ}
    (hR : EachCell M fun k cell => Regular (P k) (pF k) powF pow23
      (gNumbers M { A with loc := { A.loc with u := List.ofFn u } } cell)) :
    ∃ (r : (Fin (M.nn * M.ndof) → ℝ) → List ℝ) (J : V3 ℝ),
      (∀ y, plastResidual M P pow23 B init eR sch { A with loc := { A.loc with u := List.ofFn y } } = .ok (r y) ∧
        (r y).length = M.nn * M.ndof) ∧
      globalGradient M (localDofs M.dim) (M.npc * M.ndof) (seeds 0) (plastF powF M P pE pP pF init eF) schF
        { A with loc := { A.loc with u := List.ofFn u } } = .ok J ∧
      IsGradient M (fun y q => at0 (r y) q) (M.npc * M.ndof) (cellDof M.npc M.ndof M.c2n) J u :=
  gradient_const hM h hL init hB (mk := seeds 0) (a := fun y => { A with loc := { A.loc with u := List.ofFn y } })
    (fun y => ⟨⟨List.length_ofFn, hA.loc.up, hA.loc.c, hA.loc.cp, hA.loc.z, hA.loc.x⟩, hA.n⟩)
    (fun cell => ⟨⟨fun l hl => by
        simp only [gData, gNumbers, plainG, seeds, cellData, plainMk, plainOf, seedOf, at0_ofFn, if_true]
        exact Tracks.seed (L := fun l => coord _ (cellDof M.npc M.ndof M.c2n cell l)) hl,
      fun _ _ => Tracks.const _, fun _ _ => Tracks.const _, fun _ _ => Tracks.const _, fun _ _ _ _ => Tracks.const _⟩,
      fun _ _ => Tracks.const _⟩) hR (fun _ => he) (fun _ => hs) (fun _ => ha) heF hsF
    (Nat.mul_ne_zero (Nat.succ_ne_zero _) hM.ndof.ne') fun _ => rfl

/-- **C72**, derivative by the previous global state. -/
theorem C72_gradient_up {u : Fin (M.nn * M.ndof) → ℝ}
    (hR : EachCell M fun k cell => Regular (P k) (pF k) powF pow23 (gNumbers M A cell)) :
    ∃ (r : (Fin (M.nn * M.ndof) → ℝ) → List ℝ) (J : V3 ℝ),
      (∀ y, plastResidual M P pow23 B init eR sch { A with loc := { A.loc with up := List.ofFn y } } = .ok (r y) ∧
        (r y).length = M.nn * M.ndof) ∧
      globalGradient M (localDofs M.dim) (M.npc * M.ndof) (seeds 1) (plastF powF M P pE pP pF init eF) schF
        { A with loc := { A.loc with up := List.ofFn u } } = .ok J ∧
      IsGradient M (fun y q => at0 (r y) q) (M.npc * M.ndof) (cellDof M.npc M.ndof M.c2n) J u :=
  gradient_const hM h hL init hB (mk := seeds 1) (a := fun y => { A with loc := { A.loc with up := List.ofFn y } })
    (fun y => ⟨⟨hA.loc.u, List.length_ofFn, hA.loc.c, hA.loc.cp, hA.loc.z, hA.loc.x⟩, hA.n⟩)
    (fun cell => ⟨⟨fun _ _ => Tracks.const _,
      fun _ _ => Tracks.const _, fun _ _ => Tracks.const _, fun _ _ => Tracks.const _, fun _ _ _ _ => Tracks.const _⟩,
      fun _ _ => Tracks.const _⟩)
    (fun k hk cell hc => (hR k hk cell hc).same rfl rfl) (fun _ => he) (fun _ => hs) (fun _ => ha) heF hsF
    (Nat.mul_ne_zero (Nat.succ_ne_zero _) hM.ndof.ne') fun _ => rfl

/-- **C72**, derivative by the local state. -/
theorem C72_gradient_c {c : Fin (M.nc * localDofs M.dim) → ℝ}
    (hR : EachCell M fun k cell => Regular (P k) (pF k) powF pow23 (gNumbers M A cell)) :
    ∃ (r : (Fin (M.nc * localDofs M.dim) → ℝ) → List ℝ) (J : V3 ℝ),
      (∀ y, plastResidual M P pow23 B init eR sch { A with loc := { A.loc with c := List.ofFn y } } = .ok (r y) ∧
        (r y).length = M.nn * M.ndof) ∧
      globalGradient M (localDofs M.dim) (localDofs M.dim) (seeds 2) (plastF powF M P pE pP pF init eF) schF
        { A with loc := { A.loc with c := List.ofFn c } } = .ok J ∧
      IsGradient M (fun y q => at0 (r y) q) (localDofs M.dim) (fun cell l => cell * localDofs M.dim + l) J c :=
  gradient_const hM h hL init hB (mk := seeds 2) (a := fun y => { A with loc := { A.loc with c := List.ofFn y } })
    (fun y => ⟨⟨hA.loc.u, hA.loc.up, List.length_ofFn, hA.loc.cp, hA.loc.z, hA.loc.x⟩, hA.n⟩)
    (fun cell => ⟨⟨fun _ _ => Tracks.const _, fun l hl => by
        simp only [gData, gNumbers, plainG, seeds, cellData, plainMk, plainOf, seedOf, at0_ofFn, if_true]
        exact Tracks.seed (L := fun l => coord _ (cell * localDofs M.dim + l)) hl,
      fun _ _ => Tracks.const _, fun _ _ => Tracks.const _, fun _ _ _ _ => Tracks.const _⟩,
      fun _ _ => Tracks.const _⟩)
    (fun k hk cell hc => (hR k hk cell hc).same rfl rfl) (fun _ => he) (fun _ => hs) (fun _ => ha) heF hsF
    localDofs_pos fun _ => rfl

/-- **C72**, derivative by the previous local state. -/
theorem C72_gradient_cp {c : Fin (M.nc * localDofs M.dim) → ℝ}
    (hR : EachCell M fun k cell => Regular (P k) (pF k) powF pow23 (gNumbers M A cell)) :
    ∃ (r : (Fin (M.nc * localDofs M.dim) → ℝ) → List ℝ) (J : V3 ℝ),
      (∀ y, plastResidual M P pow23 B init eR sch { A with loc := { A.loc with cp := List.ofFn y } } = .ok (r y) ∧
        (r y).length = M.nn * M.ndof) ∧
      globalGradient M (localDofs M.dim) (localDofs M.dim) (seeds 3) (plastF powF M P pE pP pF init eF) schF
        { A with loc := { A.loc with cp := List.ofFn c } } = .ok J ∧
      IsGradient M (fun y q => at0 (r y) q) (localDofs M.dim) (fun cell l => cell * localDofs M.dim + l) J c :=
  gradient_const hM h hL init hB (mk := seeds 3) (a := fun y => { A with loc := { A.loc with cp := List.ofFn y } })
    (fun y => ⟨⟨hA.loc.u, hA.loc.up, hA.loc.c, List.length_ofFn, hA.loc.z, hA.loc.x⟩, hA.n⟩)
    (fun cell => ⟨⟨fun _ _ => Tracks.const _, fun _ _ => Tracks.const _, fun l hl => by
        simp only [gData, gNumbers, plainG, seeds, cellData, plainMk, plainOf, seedOf, at0_ofFn, if_true]
        exact Tracks.seed (L := fun l => coord _ (cell * localDofs M.dim + l)) hl,
      fun _ _ => Tracks.const _, fun _ _ _ _ => Tracks.const _⟩,
      fun _ _ => Tracks.const _⟩)
    (fun k hk cell hc => (hR k hk cell hc).same rfl rfl) (fun _ => he) (fun _ => hs) (fun _ => ha) heF hsF
    localDofs_pos fun _ => rfl

/-- **C72**, derivative by the control. -/
theorem C72_gradient_z {z : Fin M.nn → ℝ}
    (hR : EachCell M fun k cell => Regular (P k) (pF k) powF pow23
      (gNumbers M { A with loc := { A.loc with z := List.ofFn z } } cell)) :
    ∃ (r : (Fin M.nn → ℝ) → List ℝ) (J : V3 ℝ),
      (∀ y, plastResidual M P pow23 B init eR sch { A with loc := { A.loc with z := List.ofFn y } } = .ok (r y) ∧
        (r y).length = M.nn * M.ndof) ∧
      globalGradient M (localDofs M.dim) M.npc (seeds 4) (plastF powF M P pE pP pF init eF) schF
        { A with loc := { A.loc with z := List.ofFn z } } = .ok J ∧
      IsGradient M (fun y q => at0 (r y) q) M.npc (cellNode M.npc M.c2n) J z :=
  gradient_const hM h hL init hB (mk := seeds 4) (a := fun y => { A with loc := { A.loc with z := List.ofFn y } })
    (fun y => ⟨⟨hA.loc.u, hA.loc.up, hA.loc.c, hA.loc.cp, List.length_ofFn, hA.loc.x⟩, hA.n⟩)
    (fun cell => ⟨⟨fun _ _ => Tracks.const _, fun _ _ => Tracks.const _, fun _ _ => Tracks.const _, fun l hl => by
        simp only [gData, gNumbers, plainG, seeds, cellData, plainMk, plainOf, seedOf, at0_ofFn, if_true]
        exact Tracks.seed (L := fun l => coord _ (cellNode M.npc M.c2n cell l)) hl,
      fun _ _ _ _ => Tracks.const _⟩,
      fun _ _ => Tracks.const _⟩)
    hR (fun _ => he) (fun _ => hs) (fun _ => ha) heF hsF (Nat.succ_ne_zero _) fun _ => rfl

/-- **C72**, derivative by the coordinates.  What is missing: the residual with the work of the loads on the boundary
added has this derivative; that of the loads is not part of it (`C72_gradient_x_false`). -/
theorem C72_gradient_x_partial {x : Fin (M.nn * M.dim) → ℝ}
    (hR : EachCell M fun k cell => Regular (P k) (pF k) powF pow23
      (gNumbers M { A with loc := { A.loc with x := List.ofFn x } } cell)) :
    ∃ (r : (Fin (M.nn * M.dim) → ℝ) → List ℝ) (J : V3 ℝ),
      (∀ y, plastResidual M P pow23 B init eR sch { A with loc := { A.loc with x := List.ofFn y } } = .ok (r y) ∧
        (r y).length = M.nn * M.ndof) ∧
      globalGradient M (localDofs M.dim) (M.npc * M.dim) (seeds 5) (plastF powF M P pE pP pF init eF) schF
        { A with loc := { A.loc with x := List.ofFn x } } = .ok J ∧
      ∀ w : Nat → ℝ, HasFDerivAt (fun y => ∑ q ∈ range (M.nn * M.ndof), at0 (r y) q * w q +
          boundaryWork M P B { A with loc := { A.loc with x := List.ofFn y } } w)
        (∑ cell ∈ range M.nc, ∑ i ∈ range (M.npc * M.ndof), w (cellDof M.npc M.ndof M.c2n cell i) •
          ∑ l ∈ range (M.npc * M.dim), J.e cell i l • coord (M.nn * M.dim) (cellDof M.npc M.dim M.c2n cell l)) x :=
  plast_gradient hM h hL init (mk := seeds 5) (a := fun y => { A with loc := { A.loc with x := List.ofFn y } })
    (L := fun cell l => coord _ (cellDof M.npc M.dim M.c2n cell l))
    (fun y => ⟨⟨hA.loc.u, hA.loc.up, hA.loc.c, hA.loc.cp, hA.loc.z, List.length_ofFn⟩, hA.n⟩)
    (fun cell => ⟨⟨fun _ _ => Tracks.const _, fun _ _ => Tracks.const _, fun _ _ => Tracks.const _,
      fun _ _ => Tracks.const _, fun a k ha hk => by
        have e : M.dim * cellNode M.npc M.c2n cell a + k = cellDof M.npc M.dim M.c2n cell (a * M.dim + k) := by
          unfold cellDof
          rw [Nat.mul_comm a, div_block hk, Nat.mul_add_mod, Nat.mod_eq_of_lt hk]
        simp only [gData, gNumbers, plainG, seeds, cellData, plainMk, plainOf, seedOf, at0_ofFn, if_true, e]
        exact Tracks.seed (L := fun l => coord _ (cellDof M.npc M.dim M.c2n cell l)) (local_lt ha hk)⟩,
      fun _ _ => Tracks.const _⟩)
    hR (fun _ => he) (fun _ => hs) (fun _ => ha) hB (Nat.mul_ne_zero (Nat.succ_ne_zero _) hM.dim.ne') heF hsF

end Seven

/-! ## Derivative by the projected pressure gradient, assembled -/

/-- The loop over the domains adds their contributions to the created matrix. -/
theorem cells_matrix {M : FeModel} (hM : M.Ok) {di dj : Nat} (hdi : 0 < di) (hdj : 0 < dj) {o : List Nat}
    (ho : IsSchedule o M.nn) {body : List Nat → Nat → Crs ℝ → Res (Crs ℝ)} (D : Nat → Nat → Nat → ℝ)
    (hb : ∀ k A, k < M.domains.length → A.WF M.nn M.nn → A.rpb = di → A.cpb = dj →
      Coupled A M.npc M.c2n M.nc → (body (dom M k) k A).Sat fun A' => A'.WF M.nn M.nn ∧
        A'.rowMap = A.rowMap ∧ A'.cols = A.cols ∧ A'.rpb = di ∧ A'.cpb = dj ∧
        ∀ i j, i < M.nn * di → A'.dense i j = A.dense i j + D k i j) :
    (createBlockMatrix di dj o M.orm M.oab >>= overCells M body).Sat fun A => A.WF M.nn M.nn ∧
      A.rpb = di ∧ A.cpb = dj ∧
      ∀ i j, i < M.nn * di → A.dense i j = ∑ k ∈ range M.domains.length, D k i j := by
  refine Res.Sat.bind (C05_createBlockMatrix hM.adj hdi hdj ho) ?_
  rintro A ⟨hwf, hr, hc, hrow, hz⟩
  have hcp := created_coupled hwf hM.mesh hM.graph (fun I hI => (hrow I hI).1)
  unfold overCells
  refine (forRange_inv (fun k (A' : Crs ℝ) => A'.WF M.nn M.nn ∧ A'.rowMap = A.rowMap ∧
    A'.cols = A.cols ∧ A'.rpb = di ∧ A'.cpb = dj ∧
    ∀ i j, i < M.nn * di → A'.dense i j = ∑ k ∈ range k, D k i j) (Nat.zero_le _) ?_ ?_).mono ?_
  · exact ⟨hwf, rfl, rfl, hr, hc, fun i j _ => by simp [hz]⟩
  · rintro k A' - hk ⟨h1, h2, h3, h4, h5, h6⟩
    rw [rd_dom hk, Res.ok_bind]
    have hcp' : Coupled A' M.npc M.c2n M.nc := by
      intro cell a b hcell ha hb
      have := hcp cell a b hcell ha hb
      unfold Crs.hasBlock rowLen at this ⊢
      rw [h2, h3]
      exact this
    refine (hb k A' hk h1 h4 h5 hcp').mono ?_
    rintro A'' ⟨g1, g2, g3, g4, g5, g6⟩
    refine ⟨g1, g2.trans h2, g3.trans h3, g4, g5, fun i j hi => ?_⟩
    rw [g6 i j hi, h6 i j hi, sum_range_succ]
  · rintro A' ⟨h1, -, -, h4, h5, h6⟩
    exact ⟨h1, h4, h5, h6⟩

section N
variable {M : FeModel} (hM : M.Ok) {P : Nat → Plast ℝ} (h : POk M P) {pow23 : ℝ → ℝ} {B : Loads}
  (hL : LoadsOk M (P 0) B) (init : Nat → Nat → Nat → Nat) {pE pP pF : Nat → Fad → Fad} {powF : Fad → Fad}
  {A : GArgs ℝ} (hA : A.Ok M (localDofs M.dim)) {eR : Nat → Nat → List Nat} (he : EvSched M eR)
  {sch : Nat → Nat → List Nat} (hs : WsSched M sch) (ha : AddSched M (M.npc * M.ndof) sch)
  {eF : Nat → Nat → List Nat} (heF : EvSched M eF)
include hM h hL hA he hs ha heF

/-- **C72**, derivative by the projected pressure gradient: column `q` of the assembled matrix is the derivative of
entry `q` of the residual. -/
theorem C72_gradient_n {n : Fin (M.nn * M.dim) → ℝ} {o : List Nat} (ho : IsSchedule o M.nn)
    {schF : Nat → Nat → List Nat}
    (hsF : ∀ k, k < M.domains.length → (∀ j, j < 7 → IsSchedule (schF k j) (dom M k).length) ∧
      IsSchedule (schF k 7) ((dom M k).length * (M.npc * M.ndof * (M.npc * M.dim))))
    (hR : EachCell M fun k cell => Regular (P k) (pF k) powF pow23 (gNumbers M A cell)) :
    ∃ (r : (Fin (M.nn * M.dim) → ℝ) → List ℝ) (J : Crs ℝ),
      (∀ y, plastResidual M P pow23 B init eR sch { A with n := List.ofFn y } = .ok (r y) ∧
        (r y).length = M.nn * M.ndof) ∧
      globalGradientN M (localDofs M.dim) (plastF powF M P pE pP pF init eF) o schF { A with n := List.ofFn n } = .ok J ∧
      J.WF M.nn M.nn ∧ ∀ q, q < M.nn * M.ndof →
        HasFDerivAt (fun y => at0 (r y) q) (lin (M.nn * M.dim) fun j => J.dense j q) n := by
  have hA' : ∀ y : Fin (M.nn * M.dim) → ℝ, ({ A with n := List.ofFn y } : GArgs ℝ).Ok M (localDofs M.dim) :=
    fun y => ⟨hA.loc, List.length_ofFn⟩
  obtain ⟨r, hr, hd⟩ := plast_deriv (pE := pE) (pP := pP) (mk := seeds 6) (cols := M.npc * M.dim) (x := n)
    (a := fun y => { A with n := List.ofFn y }) (L := fun cell l => coord _ (cellDof M.npc M.dim M.c2n cell l))
    hM h hL init hA'
    (fun cell => ⟨⟨fun _ _ => Tracks.const _, fun _ _ => Tracks.const _, fun _ _ => Tracks.const _,
      fun _ _ => Tracks.const _, fun _ _ _ _ => Tracks.const _⟩, fun l hl => by
        simp only [gData, gNumbers, plainG, seeds, plainOf, seedOf, at0_ofFn, if_true]
        exact Tracks.seed (L := fun l => coord _ (cellDof M.npc M.dim M.c2n cell l)) hl⟩)
    (fun k hk cell hc => (hR k hk cell hc).same rfl rfl) (fun _ => he) (fun _ => hs) (fun _ => ha)
  have hres := fun k hk => globalResults_ok (mk := seeds 6) hM (hA' n)
    (plastEv_rowAdd Fad.fabs powF (lift_ok h pE pP pF) init heF) (k := k) hk (hsF k hk).1
  obtain ⟨J, e1, w1, -, -, d1⟩ := cells_matrix hM hM.dim hM.ndof ho
    (body := fun cells k B => do
      let r ← globalResults M (localDofs M.dim) (seeds 6) (plastF powF M P pE pP pF init eF) cells k (schF k)
        { A with n := List.ofFn n }
      assembleTransposeJacobian (blockEntryOrdinal M.npc M.dim M.ndof B M.c2n) (some cells) cells.length
        (M.npc * M.ndof) (M.npc * M.dim) (V2.fadView r (M.npc * M.dim)) (schF k 7) B)
    (fun k i j => scattered M.npc M.ndof M.dim M.c2n (some (dom M k)) (dom M k).length (fun c i l =>
      (plastRow Fad.fabs powF M (fun k => (P k).lift (pE k) (pP k) (pF k)) k c
        (gData M (localDofs M.dim) (seeds 6) { A with n := List.ofFn n } (atN (dom M k) c)) i).dx l) j i) (by
      intro k A' hk hwf hr hc hcp
      refine Res.Sat.bind (hres k hk) ?_
      rintro res ⟨r0, r1, r2⟩
      refine (C07_assembleTransposeJacobian (ws := V2.fadView res (M.npc * M.dim)) hwf hr hc hM.mesh hcp
        (domOk_of_mem fun c hc => dom_lt hM hk hc) r0.ge r1.ge le_rfl (hsF k hk).2).mono ?_
      rintro A'' ⟨g1, g2, g3, g4, g5, g6⟩
      refine ⟨g1, g2, g3, g4, g5, fun i j hi => ?_⟩
      rw [g6 i j hi]
      congr 1
      unfold scattered
      refine sum_congr rfl fun c hc => sum_congr rfl fun s hs => sum_congr rfl fun t _ => ?_
      congr 1
      show (res.e c s).dx t = _
      rw [r2 c s (mem_range.1 hc) (mem_range.1 hs)])
  refine ⟨r, J, hr, ?_, w1, fun q hq => ?_⟩
  · exact e1
  · have hq' := hd fun q' => if q' = q then 1 else 0
    have e : ∀ y : Fin (M.nn * M.dim) → ℝ, boundaryWork M P B { A with n := List.ofFn y } (fun q' => if q' = q then 1 else 0) =
      boundaryWork M P B A (fun q' => if q' = q then 1 else 0) := fun y => rfl
    have h1 := hq'.sub_const (boundaryWork M P B A (fun q' => if q' = q then 1 else 0))
    simp only [e, add_sub_cancel_right, mul_ite, mul_one, mul_zero, sum_ite_eq', mem_range, hq, if_true] at h1
    refine h1.congr_fderiv ?_
    rw [← lin_coord (fun j => J.dense j q)]
    have e2 : ∀ j ∈ range (M.nn * M.dim), J.dense j q • coord (M.nn * M.dim) j =
        ∑ k ∈ range M.domains.length, scattered M.npc M.ndof M.dim M.c2n (some (dom M k)) (dom M k).length (fun c i l =>
      (plastRow Fad.fabs powF M (fun k => (P k).lift (pE k) (pP k) (pF k)) k c
        (gData M (localDofs M.dim) (seeds 6) { A with n := List.ofFn n } (atN (dom M k) c)) i).dx l) q j •
          coord (M.nn * M.dim) j :=
      fun j hj => by rw [d1 j q (mem_range.1 hj), sum_smul]
    rw [sum_congr rfl e2, sum_comm]
    refine sum_congr rfl fun k hk => ?_
    refine Eq.trans ?_ (scattered_smul hM.mesh (domOk_of_mem fun c hc => dom_lt hM (mem_range.1 hk) hc) _ _ _).symm
    refine sum_congr rfl fun c _ => sum_congr rfl fun i _ => ?_
    rw [ite_smul, one_smul, zero_smul]
    rfl

end N

end Plato.Plast
