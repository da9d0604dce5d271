import Verif.Mech.Load

/-!
# C43: `gradient_x` of an elastostatic problem with body loads

The body loads read the mesh coordinates as plain numbers, so `gradient_x` is the derivative of the
residual without them.
-/

namespace Plato.Mech
open Finset Plato

/-- The forces of the body loads on a cell with nodes `X` and controls `Z`: the density times the volume
of the reference cell times the Jacobian determinant times the function at the centre, in equal parts. -/
noncomputable def bodyRow (loads : List LoadFn) (d : Nat) (Z : Nat → ℝ) (X : Nat → Nat → ℝ) : Nat → ℝ :=
  (loads.map fun L => ∑ a ∈ range (d + 1), Pi.single (a * d + L.dof)
    (-(1 / (d.factorial : ℝ) * |detForm d X| * L.f (cellCentre d X) * (1 / (d + 1 : ℝ)) *
      meanDensity (d + 1) Z)) : List (Nat → ℝ)).sum

/-- A load with the data of the mesh with coordinates `x`. -/
structure LoadData (M : FeModel) (x : List ℝ) (cells : List Nat) (L : LoadFn) (B : BodyLoad ℝ) : Prop where
  np : B.numPoints = 1
  w : B.weights = [1 / (M.dim.factorial : ℝ)]
  dof : B.dof = L.dof
  b0 : M.dim + 1 ≤ B.basis.d0
  b1 : 1 ≤ B.basis.d1
  b : ∀ a, a < M.dim + 1 → B.basis.e a 0 = 1 / (M.dim + 1 : ℝ)
  v : B.values = (List.range cells.length).map fun c => L.f (cellCentre M.dim (M.cellX x (atN cells c)))
  det : B.det = (List.range M.nc).map fun gc => |detForm M.dim (M.cellX x gc)|

section
variable {M : FeModel} (hM : M.Ok) (hdim : M.dim = 1 ∨ M.dim = 2 ∨ M.dim = 3) {x : List ℝ}
  (hx : x.length = M.nn * M.dim) (lits : CubLits ℝ) {oB oM : List Nat} (hB : IsSchedule oB 1)
  {cells : List Nat} (hcells : ∀ c ∈ cells, c < M.nc) (hO : IsSchedule oM cells.length)
include hM hdim hx hB hcells hO

theorem loads_ok : ∀ loads : List LoadFn, ∃ Bs,
    (loads.mapM fun L => L.onMesh lits M.dim M.c2n M.nc x cells oB oM) = Res.ok Bs ∧
      List.Forall₂ (LoadData M x cells) loads Bs
  | [] => ⟨[], rfl, .nil⟩
  | L :: loads => by
    obtain ⟨B, e, h1, h2, h3, ⟨h4, h5⟩, h6, h7, h8⟩ := onMesh_ok L lits hdim hM.mesh hx hcells hB hO
    obtain ⟨Bs, e', h'⟩ := loads_ok loads
    refine ⟨B :: Bs, ?_, .cons ⟨h1, h2, h3, h4, h5, h6, h7, h8⟩ h'⟩
    rw [List.mapM_cons, e, e']
    rfl

omit hM hdim hx hB hO in
theorem LoadData.ok {L : LoadFn} {B : BodyLoad ℝ} (h : LoadData M x cells L B) (hdof : L.dof < M.dim) :
    B.Ok M.dim M.dim cells := by
  refine ⟨?_, h.b0, by rw [h.np]; exact h.b1, ?_, ?_, by rw [h.dof]; exact hdof⟩
  · rw [h.np, h.w]; rfl
  · rw [h.np, h.v]; simp
  · intro gc hgc
    rw [h.det]
    simpa using hcells gc hgc

omit hM hdim hx hB hO in
theorem LoadData.row {L : LoadFn} {B : BodyLoad ℝ} (h : LoadData M x cells L B) {c : Nat}
    (hc : c < cells.length) (Z : Nat → ℝ) :
    B.row M.dim M.dim c (atN cells c) Z (-1) = ∑ a ∈ range (M.dim + 1), Pi.single (a * M.dim + L.dof)
      (-(1 / (M.dim.factorial : ℝ) * |detForm M.dim (M.cellX x (atN cells c))| *
        L.f (cellCentre M.dim (M.cellX x (atN cells c))) * (1 / (M.dim + 1 : ℝ)) * meanDensity (M.dim + 1) Z)) := by
  unfold BodyLoad.row
  rw [h.np, sum_range_one, h.dof]
  refine sum_congr rfl fun a ha => ?_
  congr 1
  have hg : atN cells c < M.nc := hcells _ (by show at0 cells c ∈ cells; rw [at0_eq hc]; exact List.getElem_mem hc)
  rw [h.b a (mem_range.1 ha), h.w, h.v, h.det, Nat.mul_one, Nat.add_zero, at0_map_range _ _ _ hc,
    at0_map_range _ _ _ hg, show at0 [1 / (M.dim.factorial : ℝ)] 0 = 1 / (M.dim.factorial : ℝ) from rfl]
  ring

omit hM hdim hx hB hO in
theorem loadRow_mesh {loads : List LoadFn} {Bs : List (BodyLoad ℝ)}
    (h : List.Forall₂ (LoadData M x cells) loads Bs) {P : Elastostatic ℝ} (hP : P.d = M.dim) {c : Nat}
    (hc : c < cells.length) (Z : Nat → ℝ) :
    (P.withLoads Bs).loadRow c (atN cells c) Z = bodyRow loads M.dim Z (M.cellX x (atN cells c)) := by
  unfold Elastostatic.loadRow bodyRow
  simp only [Elastostatic.withLoads, hP]
  induction h with
  | nil => rfl
  | cons h1 _ ih => rw [List.map_cons, List.map_cons, List.sum_cons, List.sum_cons, h1.row hcells hc, ih]

end

/-- The nodal forces of all body loads on the mesh with coordinates `x`. -/
noncomputable def bodyForces (M : FeModel) (loads : Nat → List LoadFn) (z x : List ℝ) (q : Nat) : ℝ :=
  ∑ k ∈ range M.domains.length, scatteredVec M.npc M.ndof M.c2n (M.part k) (M.size (M.part k))
    (fun c => bodyRow (loads k) M.dim (M.cellZ z (gcell (M.part k) c)) (M.cellX x (gcell (M.part k) c))) q

/-- The nodal forces of the stresses. -/
noncomputable def internalForces (M : FeModel) (P : Nat → Elastostatic ℝ) (u z x : List ℝ) (q : Nat) : ℝ :=
  ∑ k ∈ range M.domains.length, scatteredVec M.npc M.ndof M.c2n (M.part k) (M.size (M.part k))
    (fun c => (P k).forceRow abs (M.cellU u (gcell (M.part k) c)) (M.cellZ z (gcell (M.part k) c))
      (M.cellX x (gcell (M.part k) c))) q

section
variable {M : FeModel} (hM : M.Ok) (hdim : M.dim = 1 ∨ M.dim = 2 ∨ M.dim = 3) (hndof : M.ndof = M.dim)
  {P : Nat → Elastostatic ℝ} (hPd : ∀ k, k < M.domains.length → (P k).d = M.dim)
  {loads : Nat → List LoadFn} (hdof : ∀ k, ∀ L ∈ loads k, L.dof < M.dim) (lits : CubLits ℝ)
  {oB : List Nat} (hB : IsSchedule oB 1) {oM : Nat → List Nat}
  (hO : ∀ k, k < M.domains.length → IsSchedule (oM k) (M.size (M.part k)))
include hM hdim hndof hPd hdof hB hO

/-- The evaluator with the loads of the mesh is the evaluator with the data of the loads. -/
theorem elastostaticMesh_eq {x : List ℝ} (hx : x.length = M.nn * M.dim) :
    ∃ B : Nat → List (BodyLoad ℝ), ResOk M (fun k => (P k).withLoads (B k)) ∧
      (∀ k c Z, k < M.domains.length → c < M.size (M.part k) →
        ((P k).withLoads (B k)).loadRow c (gcell (M.part k) c) Z =
          bodyRow (loads k) M.dim Z (M.cellX x (gcell (M.part k) c))) ∧
      ∀ {R : Type} [CommRing R] [Div R] (fabs : R → R) (P' : Nat → Elastostatic R)
        (up : BodyLoad ℝ → BodyLoad R) (init : Nat → Nat → Nat → Nat) (sch : Nat → Nat → List Nat),
        elastostaticMesh fabs M P' up loads lits oB oM x init sch =
          elastostatic fabs M (fun k => (P' k).withLoads ((B k).map up)) init sch := by
  have hpart : ∀ k, k < M.domains.length → M.part k = some (M.domains[k]?.getD []) := fun k hk => if_pos hk
  have hc : ∀ k, k < M.domains.length → ∀ c ∈ M.domains[k]?.getD [], c < M.nc := by
    intro k hk
    rw [List.getElem?_eq_getElem hk]
    exact hM.cells _ (List.getElem_mem hk)
  have hex : ∀ k, ∃ Bs, k < M.domains.length →
      ((loads k).mapM fun L => L.onMesh lits M.dim M.c2n M.nc x (M.domains[k]?.getD []) oB (oM k)) = Res.ok Bs ∧
        List.Forall₂ (LoadData M x (M.domains[k]?.getD [])) (loads k) Bs := by
    intro k
    by_cases hk : k < M.domains.length
    · obtain ⟨Bs, h⟩ := loads_ok hM hdim hx lits hB (hc k hk)
        (by have := hO k hk; rw [hpart k hk] at this; exact this) (loads k)
      exact ⟨Bs, fun _ => h⟩
    · exact ⟨[], fun h => absurd h hk⟩
  choose B hB' using hex
  refine ⟨B, ⟨hdim, hndof, hPd, ?_⟩, ?_, ?_⟩
  · intro k cells hp b hb
    have hk : k < M.domains.length := by
      by_contra hk
      rw [show M.part k = none from if_neg hk] at hp
      cases hp
    rw [hpart k hk] at hp
    cases hp
    have h2 := (hB' k hk).2
    obtain ⟨i, hi, rfl⟩ := List.mem_iff_getElem.1 hb
    have hi' : i < (loads k).length := by rw [h2.length_eq]; exact hi
    exact LoadData.ok (hc k hk) (h2.get hi' hi) (hdof k _ (List.getElem_mem hi'))
  · intro k c Z hk hcs
    have := hpart k hk
    rw [this] at hcs ⊢
    exact loadRow_mesh (hc k hk) (hB' k hk).2 (hPd k hk) hcs Z
  · intro R _ _ fabs P' up init sch
    funext k s z g r
    unfold elastostaticMesh elastostatic
    by_cases hk : k < M.domains.length
    · rw [if_pos hk]
      simp only
      rw [(hB' k hk).1, Res.ok_bind, hpart k hk]
    · rw [if_neg hk, show M.part k = none from if_neg hk]

/-- **C47** with body loads on the mesh: the residual is the internal forces plus the forces of the
body loads. -/
theorem C47_value_mesh {init : Nat → Nat → Nat → Nat} {eR : Nat → Nat → List Nat}
    (heR : ∀ k j, IsSchedule (eR k j) (M.size (M.part k)))
    {u z x : List ℝ} (hu : u.length = M.nn * M.ndof) (hz : z.length = M.nn) (hx : x.length = M.nn * M.dim)
    {sch : Nat → Nat → List Nat} (hs : SchedOk M sch (M.npc * M.ndof)) :
    (M.value (elastostaticMesh abs M P id loads lits oB oM x init eR) sch u z x).Sat fun v =>
      v.length = M.nn * M.ndof ∧ ∀ q, at0 v q = internalForces M P u z x q + bodyForces M loads z x q := by
  obtain ⟨B, h, hr, he⟩ := elastostaticMesh_eq hM hdim hndof hPd hdof lits hB hO hx
  rw [he abs P id]
  simp only [List.map_id]
  refine (C47_value hM h heR hu hz hx hs).mono ?_
  rintro v ⟨hl, hq⟩
  refine ⟨hl, fun q => ?_⟩
  rw [hq q, internalForces, bodyForces, ← sum_add_distrib]
  refine sum_congr rfl fun k hk => ?_
  unfold scatteredVec
  rw [← sum_add_distrib]
  refine sum_congr rfl fun c hc => ?_
  rw [← sum_add_distrib]
  refine sum_congr rfl fun l _ => ?_
  unfold cellRow
  rw [hr k c _ (mem_range.1 hk) (mem_range.1 hc)]
  split_ifs
  · rfl
  · rw [add_zero]

/-- **C43** for elastostatics with body loads: `gradient_x` is the derivative of the residual less the
forces of the body loads.  Missing: it is not the derivative of the residual when these depend on the
coordinates, see `C43_elastostatic_x_false`. -/
theorem C43_elastostatic_x_partial {penF : Nat → Fad → Fad}
    {initR initF : Nat → Nat → Nat → Nat} {eR eF : Nat → Nat → List Nat}
    (heR : ∀ k j, IsSchedule (eR k j) (M.size (M.part k)))
    (heF : ∀ k j, IsSchedule (eF k j) (M.size (M.part k)))
    {o : List Nat} (ho : IsSchedule o M.nn) {sch : Nat → Nat → List Nat}
    {x : Fin (M.nn * M.dim) → ℝ} {u z : List ℝ} (hu : u.length = M.nn * M.ndof)
    (hz : z.length = M.nn)
    (hgood : ∀ c, c < M.nc → goodCell M P penF (M.cellZ z c) (M.cellX (List.ofFn x) c))
    (hs : SchedOk M sch (M.npc * M.ndof * (M.npc * M.dim)))
    {schR : (Fin (M.nn * M.dim) → ℝ) → Nat → Nat → List Nat}
    (hsR : ∀ y, SchedOk M (schR y) (M.npc * M.ndof)) :
    ∃ (v : (Fin (M.nn * M.dim) → ℝ) → List ℝ) (J : Crs ℝ),
      (∀ y, M.value (elastostaticMesh abs M P id loads lits oB oM (List.ofFn y) initR eR) (schR y) u z
        (List.ofFn y) = .ok (v y) ∧ (v y).length = M.nn * M.ndof) ∧
      M.gradientX (elastostaticMesh Fad.fabs M (fun k => (P k).lift (penF k)) BodyLoad.lift loads lits oB oM
        (List.ofFn x) initF eF) o sch u z (List.ofFn x) = .ok J ∧ J.WF M.nn M.nn ∧
      ∀ q, HasFDerivAt (fun y => at0 (v y) q - bodyForces M loads z (List.ofFn y) q)
        (lin (M.nn * M.dim) fun j => J.dense j q) x := by
  have hv : ∀ y : Fin (M.nn * M.dim) → ℝ, _ := fun y =>
    C47_value_mesh hM hdim hndof hPd hdof lits hB hO (init := initR) heR hu hz (x := List.ofFn y)
      List.length_ofFn (hsR y)
  choose v hv1 hv2 hv3 using hv
  obtain ⟨B, h, hr, he⟩ := elastostaticMesh_eq hM hdim hndof hPd hdof lits hB hO (x := List.ofFn x)
    List.length_ofFn
  obtain ⟨v', J, e1, e2, e3, e4⟩ := elastostatic_x hM (penF := penF) (initR := initR) (initF := initF) h heR heF ho hu hz hgood hs hsR
  refine ⟨v, J, fun y => ⟨hv1 y, hv2 y⟩, ?_, e3, fun q => ?_⟩
  · rw [he Fad.fabs (fun k => (P k).lift (penF k)) BodyLoad.lift]
    exact e2
  have e : (fun y => at0 (v y) q - bodyForces M loads z (List.ofFn y) q) =
      fun y => at0 (v' y) q - bodyForces M loads z (List.ofFn x) q := by
    funext y
    obtain ⟨w, hw1, -, hw3⟩ := C47_value hM h heR (init := initR) (u := u) (z := z) (x := List.ofFn y) hu hz
      List.length_ofFn (hsR y)
    rw [(e1 y).1] at hw1
    cases hw1
    rw [hv3 y q, hw3 q, internalForces, bodyForces, bodyForces, add_sub_cancel_right, eq_sub_iff_add_eq,
      ← sum_add_distrib]
    refine sum_congr rfl fun k hk => ?_
    unfold scatteredVec
    rw [← sum_add_distrib]
    refine sum_congr rfl fun c hc => ?_
    rw [← sum_add_distrib]
    refine sum_congr rfl fun l _ => ?_
    unfold cellRow
    rw [hr k c _ (mem_range.1 hk) (mem_range.1 hc)]
    split_ifs
    · rfl
    · rw [add_zero]
  rw [e]
  exact (e4 q).sub_const _

/-- Without body loads `gradient_x` is the derivative of the residual. -/
theorem C43_elastostatic_x_unloaded (hnone : ∀ k, loads k = []) {penF : Nat → Fad → Fad}
    {initR initF : Nat → Nat → Nat → Nat} {eR eF : Nat → Nat → List Nat}
    (heR : ∀ k j, IsSchedule (eR k j) (M.size (M.part k)))
    (heF : ∀ k j, IsSchedule (eF k j) (M.size (M.part k)))
    {o : List Nat} (ho : IsSchedule o M.nn) {sch : Nat → Nat → List Nat}
    {x : Fin (M.nn * M.dim) → ℝ} {u z : List ℝ} (hu : u.length = M.nn * M.ndof)
    (hz : z.length = M.nn)
    (hgood : ∀ c, c < M.nc → goodCell M P penF (M.cellZ z c) (M.cellX (List.ofFn x) c))
    (hs : SchedOk M sch (M.npc * M.ndof * (M.npc * M.dim)))
    {schR : (Fin (M.nn * M.dim) → ℝ) → Nat → Nat → List Nat}
    (hsR : ∀ y, SchedOk M (schR y) (M.npc * M.ndof)) :
    ∃ (v : (Fin (M.nn * M.dim) → ℝ) → List ℝ) (J : Crs ℝ),
      (∀ y, M.value (elastostaticMesh abs M P id loads lits oB oM (List.ofFn y) initR eR) (schR y) u z
        (List.ofFn y) = .ok (v y) ∧ (v y).length = M.nn * M.ndof) ∧
      M.gradientX (elastostaticMesh Fad.fabs M (fun k => (P k).lift (penF k)) BodyLoad.lift loads lits oB oM
        (List.ofFn x) initF eF) o sch u z (List.ofFn x) = .ok J ∧ J.WF M.nn M.nn ∧
      ∀ q, HasFDerivAt (fun y => at0 (v y) q) (lin (M.nn * M.dim) fun j => J.dense j q) x := by
  obtain ⟨v, J, h1, h2, h3, h4⟩ := C43_elastostatic_x_partial hM hdim hndof hPd hdof lits hB hO
    (initR := initR) (initF := initF) heR heF ho hu hz hgood hs hsR
  refine ⟨v, J, h1, h2, h3, fun q => ?_⟩
  have e : ∀ x, bodyForces M loads z x q = 0 := by
    intro x
    unfold bodyForces scatteredVec bodyRow
    simp [hnone]
  have := h4 q
  simpa only [e, sub_zero] using this

end

end Plato.Mech
