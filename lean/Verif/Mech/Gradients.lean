import Verif.Mech.Vector

/-!
# C43: the four gradient matrices hold the partial derivatives of the residual

For every mesh, every partition into domains, every schedule of every kernel, and every evaluator that
computes cell by cell.
-/

namespace Plato.Mech
open Finset Plato

/-- The coordinate function number `j`, zero beyond the last coordinate. -/
noncomputable def coord (m j : Nat) : (Fin m → ℝ) →L[ℝ] ℝ :=
  if h : j < m then ContinuousLinearMap.proj ⟨j, h⟩ else 0

theorem at0_ofFn {m : Nat} (y : Fin m → ℝ) (j : Nat) : at0 (List.ofFn y) j = coord m j y := by
  unfold at0 coord
  by_cases h : j < m
  · rw [List.getElem?_eq_getElem (by simpa using h)]
    simp [h]
  · rw [List.getElem?_eq_none (by simpa using h)]
    simp [h]

/-- The linear function with the coefficients `f`. -/
noncomputable def lin (m : Nat) (f : Nat → ℝ) : (Fin m → ℝ) →L[ℝ] ℝ :=
  ∑ j : Fin m, f j • ContinuousLinearMap.proj (R := ℝ) (φ := fun _ => ℝ) j

theorem lin_apply (m : Nat) (f : Nat → ℝ) (y : Fin m → ℝ) : lin m f y = ∑ j : Fin m, f j * y j := by
  simp [lin, ContinuousLinearMap.sum_apply]

theorem lin_inj {m : Nat} {f g : Nat → ℝ} (h : lin m f = lin m g) {j : Nat} (hj : j < m) : f j = g j := by
  have := congrArg (fun l => l (Pi.single ⟨j, hj⟩ 1)) h
  simpa [lin_apply, Pi.single_apply] using this

theorem lin_coord {m : Nat} (f : Nat → ℝ) : ∑ j ∈ range m, f j • coord m j = lin m f := by
  rw [sum_range]
  refine sum_congr rfl fun j _ => ?_
  unfold coord
  rw [dif_pos j.2]

/-- Pairing of a scattered matrix with a family of linear functions of the column. -/
theorem scattered_smul {V : Type} [AddCommGroup V] [Module ℝ V] {npc dr ds nc n : Nat} {c2n : List Nat}
    {dom : Option (List Nat)} {nCells : Nat} (hm : Mesh c2n npc nc n) (hd : DomOk dom nCells nc)
    (J : Nat → Nat → Nat → ℝ) (p : Nat → V) (i : Nat) :
    ∑ j ∈ range (n * ds), scattered npc dr ds c2n dom nCells J i j • p j =
      ∑ c ∈ range nCells, ∑ r ∈ range (npc * dr), if cellDof npc dr c2n (gcell dom c) r = i then
        ∑ s ∈ range (npc * ds), J c r s • p (cellDof npc ds c2n (gcell dom c) s) else 0 := by
  unfold scattered
  simp only [sum_smul]
  rw [sum_comm]
  refine sum_congr rfl fun c hc => ?_
  rw [sum_comm]
  refine sum_congr rfl fun r _ => ?_
  rw [sum_comm]
  split_ifs with hr
  · refine sum_congr rfl fun s hs => ?_
    have hlt := hm.dof_lt (hd.1 c (mem_range.1 hc)) (mem_range.1 hs)
    rw [sum_eq_single_of_mem _ (mem_range.2 hlt)]
    · rw [if_pos ⟨hr, rfl⟩]
    · intro j _ hne
      rw [if_neg (fun h => hne h.2.symm), zero_smul]
  · refine sum_eq_zero fun s _ => sum_eq_zero fun j _ => ?_
    rw [if_neg (fun h => hr h.1), zero_smul]

/-- The loop over the parts adds their contributions to the created matrix. -/
theorem matrix_loop {M : FeModel} (hM : M.Ok) {di dj : Nat} (hdi : 0 < di) (hdj : 0 < dj) {o : List Nat}
    (ho : IsSchedule o M.nn) {body : Option (List Nat) → Nat → Crs ℝ → Res (Crs ℝ)}
    (D : Nat → Nat → Nat → ℝ)
    (hb : ∀ k A, k ≤ M.domains.length → A.WF M.nn M.nn → A.rpb = di → A.cpb = dj →
      Coupled A M.npc M.c2n M.nc → (body (M.part k) k A).Sat fun A' => A'.WF M.nn M.nn ∧
        A'.rowMap = A.rowMap ∧ A'.cols = A.cols ∧ A'.rpb = di ∧ A'.cpb = dj ∧
        ∀ i j, i < M.nn * di → A'.dense i j = A.dense i j + D k i j) :
    (createBlockMatrix di dj o M.orm M.oab >>= M.overDomains body).Sat fun A => A.WF M.nn M.nn ∧
      A.rpb = di ∧ A.cpb = dj ∧
      ∀ i j, i < M.nn * di → A.dense i j = ∑ k ∈ range (M.domains.length + 1), D k i j := by
  refine Res.Sat.bind (C05_createBlockMatrix hM.adj hdi hdj ho) ?_
  rintro A ⟨hwf, hr, hc, hrow, hz⟩
  have hcp := created_coupled hwf hM.mesh hM.graph (fun I hI => (hrow I hI).1)
  refine (FeModel.overDomains_sat hM.some_domain (fun k A' => A'.WF M.nn M.nn ∧ A'.rowMap = A.rowMap ∧
    A'.cols = A.cols ∧ A'.rpb = di ∧ A'.cpb = dj ∧
    ∀ i j, i < M.nn * di → A'.dense i j = ∑ k ∈ range k, D k i j) ?_ ?_).mono ?_
  · exact ⟨hwf, rfl, rfl, hr, hc, fun i j _ => by simp [hz]⟩
  · rintro k A' hk ⟨h1, h2, h3, h4, h5, h6⟩
    have hcp' : Coupled A' M.npc M.c2n M.nc := by
      intro cell a b hcell ha hb
      have := hcp cell a b hcell ha hb
      unfold Crs.hasBlock rowLen at this ⊢
      rw [h2, h3]
      exact this
    refine (hb k A' hk h1 h4 h5 hcp').mono ?_
    rintro A'' ⟨g1, g2, g3, g4, g5, g6⟩
    refine ⟨g1, g2.trans h2, g3.trans h3, g4, g5, fun i j hi => ?_⟩
    rw [g6 i j hi, h6 i j hi, sum_range_succ]
  · rintro A' ⟨h1, -, -, h4, h5, h6⟩
    exact ⟨h1, h4, h5, h6⟩

section
variable {M : FeModel} (hM : M.Ok) {evF : Evaluator Fad}
  {good : (Nat → ℝ) → (Nat → Nat → ℝ) → Prop} (hg : GoodLocal M good)
include hM hg

/-- **C43** `gradient_u`: row `q` of the matrix returned by `gradient_u` is the derivative of entry `q`
of `value` with respect to the state. -/
theorem C43_gradient_u {evR : Evaluator ℝ} {u : Fin (M.nn * M.ndof) → ℝ} {z x : List ℝ} (hz : z.length = M.nn)
    (hx : x.length = M.nn * M.dim) (hgood : ∀ c, c < M.nc → good (M.cellZ z c) (M.cellX x c))
    (hev : EvTracks M (fun _ => evR) evF good u) {o : List Nat} (ho : IsSchedule o M.nn)
    {sch : Nat → Nat → List Nat} (hs : SchedOk M sch (M.npc * M.ndof * (M.npc * M.ndof)))
    {schR : (Fin (M.nn * M.ndof) → ℝ) → Nat → Nat → List Nat}
    (hsR : ∀ y, SchedOk M (schR y) (M.npc * M.ndof)) :
    ∃ (v : (Fin (M.nn * M.ndof) → ℝ) → List ℝ) (J : Crs ℝ),
      (∀ y, M.value evR (schR y) (List.ofFn y) z x = .ok (v y) ∧ (v y).length = M.nn * M.ndof) ∧
      M.gradientU evF o sch (List.ofFn u) z x = .ok J ∧ J.WF M.nn M.nn ∧
      ∀ q, q < M.nn * M.ndof →
        HasFDerivAt (fun y => at0 (v y) q) (lin (M.nn * M.ndof) fun j => J.dense q j) u := by
  obtain ⟨rF, v, h1, h2, h3, h4⟩ := value_hasFDeriv hM hg hev (uR := fun y => List.ofFn y)
    (zR := fun _ => z) (xR := fun _ => x) (fun y => List.length_ofFn) (fun _ => hz) (fun _ => hx) hgood
    (mkS := seedOf) (mkZ := constOf) (mkX := constOf) (N := M.npc * M.ndof)
    (L := fun c l => coord _ (cellDof M.npc M.ndof M.c2n c l))
    (fun c l hc hl => by
      simp only [at0_ofFn]
      exact Tracks.seed (L := fun l => coord _ (cellDof M.npc M.ndof M.c2n c l)) hl)
    (fun c l _ _ => Tracks.const _) (fun c a k _ _ _ => Tracks.const _) hs hsR
  obtain ⟨J, e1, w1, -, -, d1⟩ := matrix_loop hM hM.ndof hM.ndof ho
    (body := fun dom k A => do
      let r ← M.cellResults seedOf constOf constOf evF dom k sch (List.ofFn u) z x
      assembleJacobian (blockEntryOrdinal M.npc M.ndof M.ndof A M.c2n) dom (M.size dom)
        (M.npc * M.ndof) (M.npc * M.ndof) (V2.fadView r (M.npc * M.ndof)) (sch k 3) A)
    (fun k i j => scattered M.npc M.ndof M.ndof M.c2n (M.part k) (M.size (M.part k))
      (V2.fadView (rF k) (M.npc * M.ndof)).data i j) (by
      intro k A hk hwf hr hc hcp
      obtain ⟨er, r0, r1⟩ := h1 k hk
      rw [er, Res.ok_bind]
      exact C07_assembleJacobian hwf hr hc hM.mesh hcp (hM.domOk k) r0.ge r1.ge le_rfl (hs.asm k hk))
  refine ⟨v, J, fun y => ⟨h2 y, h3 y⟩, e1, w1, ?_⟩
  intro q hq
  refine (h4 q).congr_fderiv ?_
  rw [← lin_coord (fun j => J.dense q j)]
  simp only [d1 q _ hq, sum_smul]
  rw [sum_comm]
  refine sum_congr rfl fun k _ => ?_
  exact (scattered_smul hM.mesh (hM.domOk k) _ _ _).symm

/-- **C43** `gradient_u_T`: column `q` of the matrix is the derivative of entry `q` of `value` with
respect to the state. -/
theorem C43_gradient_u_T {evR : Evaluator ℝ} {u : Fin (M.nn * M.ndof) → ℝ} {z x : List ℝ} (hz : z.length = M.nn)
    (hx : x.length = M.nn * M.dim) (hgood : ∀ c, c < M.nc → good (M.cellZ z c) (M.cellX x c))
    (hev : EvTracks M (fun _ => evR) evF good u) {o : List Nat} (ho : IsSchedule o M.nn)
    {sch : Nat → Nat → List Nat} (hs : SchedOk M sch (M.npc * M.ndof * (M.npc * M.ndof)))
    {schR : (Fin (M.nn * M.ndof) → ℝ) → Nat → Nat → List Nat}
    (hsR : ∀ y, SchedOk M (schR y) (M.npc * M.ndof)) :
    ∃ (v : (Fin (M.nn * M.ndof) → ℝ) → List ℝ) (J : Crs ℝ),
      (∀ y, M.value evR (schR y) (List.ofFn y) z x = .ok (v y) ∧ (v y).length = M.nn * M.ndof) ∧
      M.gradientUT evF o sch (List.ofFn u) z x = .ok J ∧ J.WF M.nn M.nn ∧
      ∀ q, q < M.nn * M.ndof →
        HasFDerivAt (fun y => at0 (v y) q) (lin (M.nn * M.ndof) fun j => J.dense j q) u := by
  obtain ⟨rF, v, h1, h2, h3, h4⟩ := value_hasFDeriv hM hg hev (uR := fun y => List.ofFn y)
    (zR := fun _ => z) (xR := fun _ => x) (fun y => List.length_ofFn) (fun _ => hz) (fun _ => hx) hgood
    (mkS := seedOf) (mkZ := constOf) (mkX := constOf) (N := M.npc * M.ndof)
    (L := fun c l => coord _ (cellDof M.npc M.ndof M.c2n c l))
    (fun c l hc hl => by
      simp only [at0_ofFn]
      exact Tracks.seed (L := fun l => coord _ (cellDof M.npc M.ndof M.c2n c l)) hl)
    (fun c l _ _ => Tracks.const _) (fun c a k _ _ _ => Tracks.const _) hs hsR
  obtain ⟨J, e1, w1, -, -, d1⟩ := matrix_loop hM hM.ndof hM.ndof ho
    (body := fun dom k A => do
      let r ← M.cellResults seedOf constOf constOf evF dom k sch (List.ofFn u) z x
      assembleJacobian (blockTransposeEntryOrdinal M.npc M.ndof A M.c2n) dom (M.size dom)
        (M.npc * M.ndof) (M.npc * M.ndof) (V2.fadView r (M.npc * M.ndof)) (sch k 3) A)
    (fun k i j => scattered M.npc M.ndof M.ndof M.c2n (M.part k) (M.size (M.part k))
      (V2.fadView (rF k) (M.npc * M.ndof)).data j i) (by
      intro k A hk hwf hr hc hcp
      obtain ⟨er, r0, r1⟩ := h1 k hk
      rw [er, Res.ok_bind]
      exact C07_assembleJacobian_transposeLookup hwf hr hc hM.mesh hcp (hM.domOk k) r0.ge r1.ge le_rfl
        (hs.asm k hk))
  refine ⟨v, J, fun y => ⟨h2 y, h3 y⟩, e1, w1, ?_⟩
  intro q _
  refine (h4 q).congr_fderiv ?_
  rw [← lin_coord (fun j => J.dense j q)]
  have e : ∀ j ∈ range (M.nn * M.ndof), J.dense j q • coord (M.nn * M.ndof) j =
      ∑ k ∈ range (M.domains.length + 1), scattered M.npc M.ndof M.ndof M.c2n (M.part k)
        (M.size (M.part k)) (V2.fadView (rF k) (M.npc * M.ndof)).data q j • coord (M.nn * M.ndof) j :=
    fun j hj => by rw [d1 j q (mem_range.1 hj), sum_smul]
  rw [sum_congr rfl e, sum_comm]
  refine sum_congr rfl fun k _ => ?_
  exact (scattered_smul hM.mesh (hM.domOk k) _ _ _).symm

/-- **C43**: `gradient_u_T` is the transpose of `gradient_u`, whatever the schedules. -/
theorem C43_gradient_u_T_transposed {evR : Evaluator ℝ} {u : Fin (M.nn * M.ndof) → ℝ} {z x : List ℝ}
    (hz : z.length = M.nn)
    (hx : x.length = M.nn * M.dim) (hgood : ∀ c, c < M.nc → good (M.cellZ z c) (M.cellX x c))
    (hev : EvTracks M (fun _ => evR) evF good u) {o oT : List Nat} (ho : IsSchedule o M.nn)
    (hoT : IsSchedule oT M.nn) {sch schT : Nat → Nat → List Nat}
    (hs : SchedOk M sch (M.npc * M.ndof * (M.npc * M.ndof)))
    (hsT : SchedOk M schT (M.npc * M.ndof * (M.npc * M.ndof)))
    {schR : Nat → Nat → List Nat} (hsR : SchedOk M schR (M.npc * M.ndof)) :
    ∃ J JT : Crs ℝ, M.gradientU evF o sch (List.ofFn u) z x = .ok J ∧
      M.gradientUT evF oT schT (List.ofFn u) z x = .ok JT ∧
      ∀ i j, i < M.nn * M.ndof → j < M.nn * M.ndof → JT.dense j i = J.dense i j := by
  obtain ⟨v, J, h1, h2, -, h3⟩ := C43_gradient_u hM hg hz hx hgood hev ho hs (schR := fun _ => schR) fun _ => hsR
  obtain ⟨v', JT, h1', h2', -, h3'⟩ := C43_gradient_u_T hM hg hz hx hgood hev hoT hsT (schR := fun _ => schR)
    fun _ => hsR
  refine ⟨J, JT, h2, h2', fun i j hi hj => ?_⟩
  have e : v' = v := funext fun y => Res.ok.inj ((h1' y).1.symm.trans (h1 y).1)
  subst e
  exact lin_inj ((h3' i hi).unique (h3 i hi)) hj

/-- **C43** `gradient_z`: column `q` of the matrix returned by `gradient_z` is the derivative of entry
`q` of `value` with respect to the control. -/
theorem C43_gradient_z {evR : Evaluator ℝ} {z : Fin M.nn → ℝ} {u x : List ℝ} (hu : u.length = M.nn * M.ndof)
    (hx : x.length = M.nn * M.dim) (hgood : ∀ c, c < M.nc → good (M.cellZ (List.ofFn z) c) (M.cellX x c))
    (hev : EvTracks M (fun _ => evR) evF good z) {o : List Nat} (ho : IsSchedule o M.nn)
    {sch : Nat → Nat → List Nat} (hs : SchedOk M sch (M.npc * M.ndof * (M.npc * 1)))
    {schR : (Fin M.nn → ℝ) → Nat → Nat → List Nat} (hsR : ∀ y, SchedOk M (schR y) (M.npc * M.ndof)) :
    ∃ (v : (Fin M.nn → ℝ) → List ℝ) (J : Crs ℝ),
      (∀ y, M.value evR (schR y) u (List.ofFn y) x = .ok (v y) ∧ (v y).length = M.nn * M.ndof) ∧
      M.gradientZ evF o sch u (List.ofFn z) x = .ok J ∧ J.WF M.nn M.nn ∧
      ∀ q, HasFDerivAt (fun y => at0 (v y) q) (lin M.nn fun j => J.dense j q) z := by
  obtain ⟨rF, v, h1, h2, h3, h4⟩ := value_hasFDeriv hM hg hev (uR := fun _ => u)
    (zR := fun y => List.ofFn y) (xR := fun _ => x) (fun _ => hu) (fun y => List.length_ofFn) (fun _ => hx)
    hgood (mkS := constOf) (mkZ := seedOf) (mkX := constOf) (N := M.npc * 1)
    (L := fun c l => coord _ (cellDof M.npc 1 M.c2n c l))
    (fun c l _ _ => Tracks.const _)
    (fun c l hc hl => by
      simp only [FeModel.cellZ, at0_ofFn, ← cellDof_one M.npc M.c2n c l]
      exact Tracks.seed (L := fun l => coord _ (cellDof M.npc 1 M.c2n c l)) (by omega))
    (fun c a k _ _ _ => Tracks.const _) hs hsR
  obtain ⟨J, e1, w1, -, -, d1⟩ := matrix_loop hM Nat.one_pos hM.ndof ho
    (body := fun dom k A => do
      let r ← M.cellResults constOf seedOf constOf evF dom k sch u (List.ofFn z) x
      assembleTransposeJacobian (blockEntryOrdinal M.npc 1 M.ndof A M.c2n) dom (M.size dom)
        (M.npc * M.ndof) (M.npc * 1) (V2.fadView r (M.npc * 1)) (sch k 3) A)
    (fun k i j => scattered M.npc M.ndof 1 M.c2n (M.part k) (M.size (M.part k))
      (V2.fadView (rF k) (M.npc * 1)).data j i) (by
      intro k A hk hwf hr hc hcp
      obtain ⟨er, r0, r1⟩ := h1 k hk
      rw [er, Res.ok_bind]
      exact C07_assembleTransposeJacobian hwf hr hc hM.mesh hcp (hM.domOk k) r0.ge r1.ge le_rfl (hs.asm k hk))
  refine ⟨v, J, fun y => ⟨h2 y, h3 y⟩, e1, w1, ?_⟩
  intro q
  refine (h4 q).congr_fderiv ?_
  rw [← lin_coord (fun j => J.dense j q)]
  have e : ∀ j ∈ range M.nn, J.dense j q • coord M.nn j =
      ∑ k ∈ range (M.domains.length + 1), scattered M.npc M.ndof 1 M.c2n (M.part k)
        (M.size (M.part k)) (V2.fadView (rF k) (M.npc * 1)).data q j • coord M.nn j :=
    fun j hj => by rw [d1 j q (by rw [Nat.mul_one]; exact mem_range.1 hj), sum_smul]
  rw [sum_congr rfl e, sum_comm]
  refine sum_congr rfl fun k _ => ?_
  have := scattered_smul (ds := 1) (dr := M.ndof) hM.mesh (hM.domOk k)
    (V2.fadView (rF k) (M.npc * 1)).data (coord M.nn) q
  rw [Nat.mul_one] at this
  rw [this]
  simp only [Nat.mul_one]
  rfl

/-- **C43** `gradient_x`: column `q` of the matrix returned by `gradient_x` is the derivative of entry
`q` of `value` with respect to the coordinates of the nodes, provided the evaluator follows the
coordinates it reads from the mesh. -/
theorem C43_gradient_x {evR : (Fin (M.nn * M.dim) → ℝ) → Evaluator ℝ} {x : Fin (M.nn * M.dim) → ℝ}
    {u z : List ℝ} (hu : u.length = M.nn * M.ndof) (hz : z.length = M.nn)
    (hgood : ∀ c, c < M.nc → good (M.cellZ z c) (M.cellX (List.ofFn x) c))
    (hev : EvTracks M evR evF good x) {o : List Nat} (ho : IsSchedule o M.nn)
    {sch : Nat → Nat → List Nat} (hs : SchedOk M sch (M.npc * M.ndof * (M.npc * M.dim)))
    {schR : (Fin (M.nn * M.dim) → ℝ) → Nat → Nat → List Nat}
    (hsR : ∀ y, SchedOk M (schR y) (M.npc * M.ndof)) :
    ∃ (v : (Fin (M.nn * M.dim) → ℝ) → List ℝ) (J : Crs ℝ),
      (∀ y, M.value (evR y) (schR y) u z (List.ofFn y) = .ok (v y) ∧ (v y).length = M.nn * M.ndof) ∧
      M.gradientX evF o sch u z (List.ofFn x) = .ok J ∧ J.WF M.nn M.nn ∧
      ∀ q, HasFDerivAt (fun y => at0 (v y) q) (lin (M.nn * M.dim) fun j => J.dense j q) x := by
  obtain ⟨rF, v, h1, h2, h3, h4⟩ := value_hasFDeriv hM hg hev (uR := fun _ => u)
    (zR := fun _ => z) (xR := fun y => List.ofFn y) (fun _ => hu) (fun _ => hz) (fun y => List.length_ofFn)
    hgood (mkS := constOf) (mkZ := constOf) (mkX := seedOf) (N := M.npc * M.dim)
    (L := fun c l => coord _ (cellDof M.npc M.dim M.c2n c l))
    (fun c l _ _ => Tracks.const _) (fun c l _ _ => Tracks.const _)
    (fun c a k hc ha hk => by
      have e : M.dim * cellNode M.npc M.c2n c a + k = cellDof M.npc M.dim M.c2n c (a * M.dim + k) := by
        unfold cellDof
        rw [Nat.mul_comm a, div_block hk, Nat.mul_add_mod, Nat.mod_eq_of_lt hk]
      simp only [FeModel.cellX, at0_ofFn, e]
      exact Tracks.seed (L := fun l => coord _ (cellDof M.npc M.dim M.c2n c l))
        (by rw [Nat.mul_comm a]; exact block_lt hk ha)) hs hsR
  obtain ⟨J, e1, w1, -, -, d1⟩ := matrix_loop hM hM.dim hM.ndof ho
    (body := fun dom k A => do
      let r ← M.cellResults constOf constOf seedOf evF dom k sch u z (List.ofFn x)
      assembleTransposeJacobian (blockEntryOrdinal M.npc M.dim M.ndof A M.c2n) dom (M.size dom)
        (M.npc * M.ndof) (M.npc * M.dim) (V2.fadView r (M.npc * M.dim)) (sch k 3) A)
    (fun k i j => scattered M.npc M.ndof M.dim M.c2n (M.part k) (M.size (M.part k))
      (V2.fadView (rF k) (M.npc * M.dim)).data j i) (by
      intro k A hk hwf hr hc hcp
      obtain ⟨er, r0, r1⟩ := h1 k hk
      rw [er, Res.ok_bind]
      exact C07_assembleTransposeJacobian hwf hr hc hM.mesh hcp (hM.domOk k) r0.ge r1.ge le_rfl (hs.asm k hk))
  refine ⟨v, J, fun y => ⟨h2 y, h3 y⟩, e1, w1, ?_⟩
  intro q
  refine (h4 q).congr_fderiv ?_
  rw [← lin_coord (fun j => J.dense j q)]
  have e : ∀ j ∈ range (M.nn * M.dim), J.dense j q • coord (M.nn * M.dim) j =
      ∑ k ∈ range (M.domains.length + 1), scattered M.npc M.ndof M.dim M.c2n (M.part k)
        (M.size (M.part k)) (V2.fadView (rF k) (M.npc * M.dim)).data q j • coord (M.nn * M.dim) j :=
    fun j hj => by rw [d1 j q (mem_range.1 hj), sum_smul]
  rw [sum_congr rfl e, sum_comm]
  refine sum_congr rfl fun k _ => ?_
  exact (scattered_smul hM.mesh (hM.domOk k) _ _ _).symm

end

end Plato.Mech
