import Verif.Plast.ProjectionProps
import Verif.Plast.Length

/-!
# C75: the projected gradient is a weighted mean of the gradients of the cells around a node
-/

namespace Plato.Plast
open Finset Plato Plato.Mech Plato.Thermal Plato.Dyn Plato.J2

/-! ## Specification -/

/-- Part of the shape function of node `n` at the integration point of a cell. -/
noncomputable def hat (M : FeModel) (B : Nat → ℝ) (cell n : Nat) : ℝ :=
  ∑ a ∈ range M.npc, if cellNode M.npc M.c2n cell a = n then B a else 0

/-- Share of a cell in the mean of a node: volume, penalty and shape function. -/
noncomputable def share (M : FeModel) (P : Nat → Proj ℝ) (z x : List ℝ) (n k cell : Nat) : ℝ :=
  (P k).mass abs (M.cellZ z cell) (M.cellX x cell) * hat M (at0 (P k).basis) cell n

/-- Sum over all cells of all domains. -/
noncomputable def cellSum (M : FeModel) (f : Nat → Nat → ℝ) : ℝ :=
  ∑ k ∈ range M.domains.length, ∑ c ∈ range (M.size (M.part k)), f k (gcell (M.part k) c)

/-! ## Cells -/

theorem Proj.row_pair {R : Type} [CommRing R] [Div R] (P : Proj R) (fabs : R → R) (U p Z : Nat → R) (X : Nat → Nat → R)
    (W : Nat → R) : ∑ l ∈ range ((P.d + 1) * P.d), P.row fabs U p Z X l * W l =
      P.mass fabs Z X * ∑ i ∈ range P.d, (P.at U i - P.slope p X i) * P.at W i := by
  have e : ∀ f : Nat → Nat → R, ∑ l ∈ range ((P.d + 1) * P.d), (∑ n ∈ range (P.d + 1), ∑ i ∈ range P.d,
      (Pi.single (P.d * n + i + 0) (f n i) : Nat → R)) l * W l = ∑ i ∈ range P.d, ∑ n ∈ range (P.d + 1), f n i * W (P.d * n + 0 + i) := by
    intro f
    simp only [Finset.sum_apply, sum_mul]
    rw [sum_comm, sum_comm (s := range P.d)]
    refine sum_congr rfl fun n hn => ?_
    rw [sum_comm]
    refine sum_congr rfl fun i hi => ?_
    have := dof_lt (ndof := P.d) (mem_range.1 hn) (mem_range.1 hi)
    rw [single_pairing (by rw [Nat.mul_comm P.d n]; omega)]
    simp only [Nat.add_zero]
  have a : ∀ f g : Nat → R, ∑ l ∈ range ((P.d + 1) * P.d), (f + g) l * W l =
      ∑ l ∈ range ((P.d + 1) * P.d), f l * W l + ∑ l ∈ range ((P.d + 1) * P.d), g l * W l := fun f g => by
    rw [← sum_add_distrib]
    exact sum_congr rfl fun l _ => by rw [Pi.add_apply, add_mul]
  unfold Proj.row
  rw [a]
  rw [e, e, ← sum_add_distrib, mul_sum]
  refine sum_congr rfl fun i _ => ?_
  rw [← sum_add_distrib]
  unfold Proj.mass Proj.at interp
  rw [mul_sum, mul_sum]
  refine sum_congr rfl fun n _ => ?_
  ring

/-- Value of a test function of one unknown at the integration point. -/
theorem at_single {M : FeModel} {P : Proj ℝ} (hM : M.Ok) (hn : M.ndof = M.dim) (hd : P.d = M.dim) (cell n i j : Nat) (hi : i < M.dim) (hj : j < M.dim) :
    P.at (dofs M (fun q => if q = n * M.dim + i then 1 else 0) cell) j = if j = i then hat M (at0 P.basis) cell n else 0 := by
  have hpos : 0 < M.dim := hM.dim
  unfold Proj.at interp hat dofs cellDof
  rw [hd, hn]
  have e : ∀ a, (M.dim * a + 0 + j) / M.dim = a ∧ (M.dim * a + 0 + j) % M.dim = j := fun a => by
    rw [Nat.add_zero]
    exact ⟨by rw [Nat.mul_add_div hpos, Nat.div_eq_of_lt hj, Nat.add_zero], by rw [Nat.mul_add_mod, Nat.mod_eq_of_lt hj]⟩
  have e2 : ∀ m, M.dim * m + j = n * M.dim + i ↔ m = n ∧ j = i := by
    intro m
    constructor
    · intro h
      have h1 := congrArg (· / M.dim) h
      have h2 := congrArg (· % M.dim) h
      rw [Nat.mul_comm n] at h1 h2
      rw [Nat.mul_add_div hpos, Nat.mul_add_div hpos, Nat.div_eq_of_lt hi, Nat.div_eq_of_lt hj] at h1
      rw [Nat.mul_add_mod, Nat.mul_add_mod, Nat.mod_eq_of_lt hi, Nat.mod_eq_of_lt hj] at h2
      exact ⟨h1, h2⟩
    · rintro ⟨rfl, rfl⟩
      rw [Nat.mul_comm]
  simp only [(e _).1, (e _).2, e2]
  show ∑ a ∈ range (M.dim + 1), _ = if j = i then ∑ a ∈ range (M.dim + 1), _ else 0
  split_ifs with h
  · exact sum_congr rfl fun a _ => by simp only [h, and_true]; split_ifs <;> simp
  · exact sum_eq_zero fun a _ => by simp [h]

theorem at_lin (P : Proj ℝ) (a b : ℝ) (U V : Nat → ℝ) (i : Nat) :
    P.at (fun l => a * U l + b * V l) i = a * P.at U i + b * P.at V i := by
  unfold Proj.at interp
  rw [mul_sum, mul_sum, ← sum_add_distrib]
  exact sum_congr rfl fun n _ => by ring

theorem at_zero (P : Proj ℝ) (i : Nat) : P.at (fun _ => 0) i = 0 := by
  unfold Proj.at interp
  simp

theorem at_one {P : Proj ℝ} (hB : ∑ a ∈ range (P.d + 1), at0 P.basis a = 1) (i : Nat) : P.at (fun _ => 1) i = 1 := by
  unfold Proj.at interp
  simpa using hB

theorem at_congr {P : Proj ℝ} {U V : Nat → ℝ} {i : Nat} (hi : i < P.d) (h : ∀ l, l < (P.d + 1) * P.d → U l = V l) :
    P.at U i = P.at V i := by
  unfold Proj.at interp
  refine sum_congr rfl fun n hn => ?_
  have := dof_lt (ndof := P.d) (mem_range.1 hn) hi
  dsimp only
  rw [h _ (by rw [Nat.mul_comm P.d n]; omega)]

/-! ## Blocks of the matrix -/

/-- The blocks of `gradient_u` have one row and one column per unknown of a node. -/
theorem gradientU_blocks {M : FeModel} (hM : M.Ok) {evF : Evaluator Fad} {good : (Nat → ℝ) → (Nat → Nat → ℝ) → Prop}
    (hg : GoodLocal M good) {evR : Evaluator ℝ} {u : Fin (M.nn * M.ndof) → ℝ} {z x : List ℝ} (hz : z.length = M.nn)
    (hx : x.length = M.nn * M.dim) (hgood : ∀ c, c < M.nc → good (M.cellZ z c) (M.cellX x c))
    (hev : EvTracks M (fun _ => evR) evF good u) {o : List Nat} (ho : IsSchedule o M.nn)
    {sch : Nat → Nat → List Nat} (hs : SchedOk M sch (M.npc * M.ndof * (M.npc * M.ndof)))
    {schR : (Fin (M.nn * M.ndof) → ℝ) → Nat → Nat → List Nat}
    (hsR : ∀ y, SchedOk M (schR y) (M.npc * M.ndof)) :
    (M.gradientU evF o sch (List.ofFn u) z x).Sat fun J => J.rpb = M.ndof ∧ J.cpb = M.ndof := by
  obtain ⟨rF, v, h1, h2, h3, h4⟩ := value_hasFDeriv hM hg hev (uR := fun y => List.ofFn y)
    (zR := fun _ => z) (xR := fun _ => x) (fun y => List.length_ofFn) (fun _ => hz) (fun _ => hx) hgood
    (mkS := seedOf) (mkZ := constOf) (mkX := constOf) (N := M.npc * M.ndof)
    (L := fun c l => coord _ (cellDof M.npc M.ndof M.c2n c l))
    (fun c l hc hl => by
      simp only [at0_ofFn]
      exact Tracks.seed (L := fun l => coord _ (cellDof M.npc M.ndof M.c2n c l)) hl)
    (fun c l _ _ => Tracks.const _) (fun c a k _ _ _ => Tracks.const _) hs hsR
  obtain ⟨J, e1, -, b1, b2, -⟩ := matrix_loop hM hM.ndof hM.ndof ho
    (body := fun dom k A => do
      let r ← M.cellResults seedOf constOf constOf evF dom k sch (List.ofFn u) z x
      assembleJacobian (blockEntryOrdinal M.npc M.ndof M.ndof A M.c2n) dom (M.size dom)
        (M.npc * M.ndof) (M.npc * M.ndof) (V2.fadView r (M.npc * M.ndof)) (sch k 3) A)
    (fun k i j => scattered M.npc M.ndof M.ndof M.c2n (M.part k) (M.size (M.part k))
      (V2.fadView (rF k) (M.npc * M.ndof)).data i j) (by
      intro k A hk hwf hr hc hcp
      obtain ⟨er, r0, r1⟩ := h1 k hk
      rw [er, Res.ok_bind]
      exact C07_assembleJacobian hwf hr hc hM.mesh hcp (hM.domOk k) r0.ge r1.ge le_rfl (hs.asm k hk))
  exact ⟨J, e1, b1, b2⟩

/-! ## The projection -/

/-- Cells and densities at which the projection is defined. -/
def projGood (M : FeModel) (P : Nat → Proj ℝ) (penF : Nat → Fad → Fad) (Z : Nat → ℝ) (X : Nat → Nat → ℝ) : Prop :=
  detForm M.dim X ≠ 0 ∧ ∀ k, k < M.domains.length → PenOk (penF k) (P k).pen (meanDensity (M.dim + 1) Z)

theorem projGood_local {M : FeModel} {P : Nat → Proj ℝ} {penF : Nat → Fad → Fad} (h : ProjOk M P) :
    GoodLocal M (projGood M P penF) := by
  intro Z Z' X X' hZ hX hg
  refine ⟨?_, ?_⟩
  · rw [← detForm_congr h.dim hX]
    exact hg.1
  · rw [← meanDensity_congr (npc := M.dim + 1) hZ]
    exact hg.2

/-- All loops run over what they should, in any order. -/
structure ProjSched.Ok (S : ProjSched) (M : FeModel) : Prop where
  extract : IsSchedule S.extract M.nn
  fill : IsSchedule S.fill (M.nn * M.ndof)
  value : SchedOk M S.value (M.npc * M.ndof)
  node : ∀ k, IsSchedule (S.node k) (M.size (M.part k))
  eval : ∀ k, IsSchedule (S.eval k) (M.size (M.part k))
  create : IsSchedule S.create M.nn
  matrix : SchedOk M S.matrix (M.npc * M.ndof * (M.npc * M.ndof))
  nodeU : ∀ k, IsSchedule (S.nodeU k) (M.size (M.part k))
  evalU : ∀ k, IsSchedule (S.evalU k) (M.size (M.part k))
  scale : IsSchedule S.scale (M.nn * M.ndof)
  rows : IsSchedule S.rows M.nn

section
variable {M : FeModel} (hM : M.Ok) {P : Nat → Proj ℝ} (h : ProjOk M P) {penF : Nat → Fad → Fad} {press z x : List ℝ}
include hM h

theorem proj_work (hp : press.length = M.nn) {sn se : Nat → List Nat} (hsn : ∀ k, IsSchedule (sn k) (M.size (M.part k)))
    (hse : ∀ k, IsSchedule (se k) (M.size (M.part k))) {u : List ℝ} (hu : u.length = M.nn * M.ndof) (hz : z.length = M.nn)
    (hx : x.length = M.nn * M.dim) {sch : Nat → Nat → List Nat} (hs : SchedOk M sch (M.npc * M.ndof)) :
    (M.value (projEv abs M P plainOf press sn se) sch u z x).Sat fun v => v.length = M.nn * M.ndof ∧ ∀ w : Nat → ℝ,
      ∑ q ∈ range (M.nn * M.ndof), at0 v q * w q = cellSum M fun k cell =>
        (P k).mass abs (M.cellZ z cell) (M.cellX x cell) * ∑ i ∈ range M.dim,
          ((P k).at (dofs M (at0 u) cell) i - (P k).slope (M.cellZ press cell) (M.cellX x cell) i) * (P k).at (dofs M w cell) i := by
  refine (RowEv.work hM (projEv_row hM hp hsn hse abs plainOf h.dim h.ndof h.d h.basis) hu hz hx hs).mono ?_
  rintro v ⟨hl, hv⟩
  refine ⟨hl, fun w => ?_⟩
  rw [hv w]
  unfold cellSum
  refine sum_congr rfl fun k hk => sum_congr rfl fun c _ => ?_
  have hd := h.d k (mem_range.1 hk)
  have e : M.npc * M.ndof = ((P k).d + 1) * (P k).d := by rw [h.ndof, FeModel.npc, hd]
  rw [e, ← hd]
  exact (P k).row_pair abs _ _ _ _ (dofs M w (gcell (M.part k) c))

theorem proj_tracks {E : Type} [NormedAddCommGroup E] [NormedSpace ℝ E] (hp : press.length = M.nn)
    {sn se sn' se' : Nat → List Nat} (hsn : ∀ k, IsSchedule (sn k) (M.size (M.part k)))
    (hse : ∀ k, IsSchedule (se k) (M.size (M.part k))) (hsn' : ∀ k, IsSchedule (sn' k) (M.size (M.part k)))
    (hse' : ∀ k, IsSchedule (se' k) (M.size (M.part k))) (x : E) :
    EvTracks M (fun _ => projEv abs M P plainOf press sn se)
      (projEv Fad.fabs M (fun k => (P k).lift (penF k)) constOf press sn' se') (projGood M P penF) x := by
  refine RowEv.tracks (projEv_row hM hp hsn hse abs plainOf h.dim h.ndof h.d h.basis)
    (projEv_row hM hp hsn' hse' Fad.fabs constOf h.dim h.ndof h.d fun k hk => by
      show ((P k).basis.map Fad.const).length = _
      rw [List.length_map]; exact h.basis k hk) ?_
  intro k c N L SF ZF XF SR ZR XR hk _ hS hZ hX hg l _
  have hd := h.d k hk
  have hnp : M.npc = (P k).d + 1 := by rw [FeModel.npc, hd]
  have e : M.npc * M.ndof = ((P k).d + 1) * (P k).d := by rw [h.ndof, hnp, hd]
  exact Proj.row_tracks (by rw [hd]; exact h.dim) (fun l hl => hS l (by omega)) (fun n _ => Tracks.const _)
    (fun n hn => hZ n (by omega)) (fun a i ha hi => hX a i (by omega) (by omega)) (by rw [hd]; exact hg.1)
    (by rw [hd]; exact hg.2 k hk) l

/-- **C75**: at every node with a weight, the projected gradient is the mean over the cells of the scaled gradients
of the pressure, weighted with volume, penalty and shape function. -/
theorem C75_average (hB : ∀ k, k < M.domains.length → ∑ a ∈ range (M.dim + 1), at0 (P k).basis a = 1) (hnn : 0 < M.nn)
    {ndof off : Nat} (hoff : off < ndof) {state old : List ℝ} (hst : state.length = M.nn * ndof)
    (hold : old.length = M.nn * M.ndof) (hz : z.length = M.nn) (hx : x.length = M.nn * M.dim)
    (hgood : ∀ c, c < M.nc → projGood M P penF (M.cellZ z c) (M.cellX x c)) {S : ProjSched} (hS : S.Ok M) :
    (updateProjected M P penF ndof off S state z x old).Sat fun y => y.length = M.nn * M.dim ∧
      ∀ n i, n < M.nn → i < M.dim → cellSum M (share M P z x n) ≠ 0 →
        at0 y (n * M.dim + i) * cellSum M (share M P z x n) = cellSum M fun k cell => share M P z x n k cell *
          (P k).slope (fun a => at0 state (cellNode M.npc M.c2n cell a * ndof + off)) (M.cellX x cell) i := by
  have hnd := h.ndof
  have hdim := hM.dim
  have hpos : 0 < M.nn * M.ndof := Nat.mul_pos hnn hM.ndof
  unfold updateProjected
  refine Res.Sat.bind (blas1.C41_extract (order := S.extract) (by simpa using hS.extract) (by simpa using hnn) (by
    rw [List.length_replicate, hst]
    calc (M.nn - 1) * ndof + off < (M.nn - 1) * ndof + ndof := by omega
      _ = M.nn * ndof := by rw [← Nat.succ_mul]; congr 1; omega)) ?_
  rintro press ⟨hpl, hpv⟩
  rw [List.length_replicate] at hpl hpv
  rw [blas1.C41_fill (order := S.fill) (by rw [hold]; exact hS.fill) (by omega) rfl, Res.ok_bind, hold]
  have hy0 : (List.replicate (M.nn * M.ndof) (0 : ℝ)) = List.ofFn (fun _ : Fin (M.nn * M.ndof) => (0 : ℝ)) := by
    rw [List.ofFn_const]
  have htr := proj_tracks (penF := penF) hM h hpl hS.node hS.eval hS.nodeU hS.evalU (fun _ : Fin (M.nn * M.ndof) => (0 : ℝ))
  obtain ⟨v, J, hv, hJ, hwf, hder⟩ := C43_gradient_u hM (projGood_local h) (u := fun _ => (0 : ℝ)) hz hx hgood htr hS.create
    hS.matrix (schR := fun _ => S.value) fun _ => hS.value
  obtain ⟨J', hJ', hr, hc⟩ := gradientU_blocks hM (projGood_local h) (u := fun _ => (0 : ℝ)) hz hx hgood htr hS.create
    hS.matrix (schR := fun _ => S.value) fun _ => hS.value
  have hwork : ∀ y, ∀ w : Nat → ℝ, ∑ q ∈ range (M.nn * M.ndof), at0 (v y) q * w q = cellSum M fun k cell =>
        (P k).mass abs (M.cellZ z cell) (M.cellX x cell) * ∑ i ∈ range M.dim,
          ((P k).at (dofs M (at0 (List.ofFn y)) cell) i - (P k).slope (M.cellZ press cell) (M.cellX x cell) i) *
            (P k).at (dofs M w cell) i := by
    intro y w
    obtain ⟨v', e', -, hw⟩ := proj_work hM h hpl hS.node hS.eval (u := List.ofFn y) List.length_ofFn hz hx hS.value
    rw [(hv y).1] at e'
    rw [Res.ok.inj e']
    exact hw w
  rw [hJ] at hJ'
  cases hJ'
  rw [hy0, (hv _).1, Res.ok_bind, hJ, Res.ok_bind]
  refine Res.Sat.bind (blas1.C41_scale (order := S.scale) (by rw [(hv _).2]; exact hS.scale) (by rw [(hv _).2]; exact hpos) rfl) ?_
  rintro b ⟨hbl, hbv⟩
  rw [(hv _).2] at hbl hbv
  refine (rowSummed_ok (n := M.dim) hwf (hr.trans hnd) (hc.trans hnd) (by rw [List.length_ofFn, hnd]) (by rw [hbl, hnd]) hS.rows).mono ?_
  rintro y ⟨hyl, hyv⟩
  refine ⟨hyl, fun n i hn hi hw => ?_⟩
  have hq : n * M.dim + i < M.nn * M.dim := by rw [Nat.mul_comm n]; exact block_lt hi hn
  rw [hyv _ hq, hbv _ (by rw [hnd]; exact hq)]
  let w : Nat → ℝ := fun q => if q = n * M.dim + i then 1 else 0
  have hsel : ∀ f : Nat → ℝ, ∑ q ∈ range (M.nn * M.ndof), f q * w q = f (n * M.dim + i) := by
    intro f
    rw [sum_eq_single_of_mem (n * M.dim + i) (mem_range.2 (by rw [hnd]; exact hq))]
    · simp [w]
    · intro q _ hne
      simp [w, hne]
  have hat' : ∀ k, k < M.domains.length → ∀ cell (g : Nat → ℝ), ∑ j ∈ range M.dim, g j * (P k).at (dofs M w cell) j =
      g i * hat M (at0 (P k).basis) cell n := by
    intro k hk cell g
    rw [sum_eq_single_of_mem i (mem_range.2 hi)]
    · rw [at_single hM hnd (h.d k hk) cell n i i hi hi, if_pos rfl]
    · intro j hj hne
      rw [at_single hM hnd (h.d k hk) cell n i j hi (mem_range.1 hj), if_neg hne, mul_zero]
  have e1 : at0 (v fun _ => 0) (n * M.dim + i) = -cellSum M fun k cell => share M P z x n k cell *
      (P k).slope (fun a => at0 state (cellNode M.npc M.c2n cell a * ndof + off)) (M.cellX x cell) i := by
    rw [← hsel (at0 (v fun _ => 0)), hwork]
    unfold cellSum
    rw [← sum_neg_distrib]
    refine sum_congr rfl fun k hk => ?_
    rw [← sum_neg_distrib]
    refine sum_congr rfl fun c hc => ?_
    have hk' := mem_range.1 hk
    have hcell := (hM.domOk k).1 c (mem_range.1 hc)
    dsimp only
    rw [hat' k hk' _ fun j => (P k).at _ j - (P k).slope _ _ j]
    have ez : dofs M (at0 (List.ofFn fun _ : Fin (M.nn * M.ndof) => (0 : ℝ))) (gcell (M.part k) c) = fun _ => 0 := by
      funext l
      unfold dofs
      rw [← hy0, at0, List.getElem?_replicate]
      split_ifs <;> rfl
    have es : (P k).slope (M.cellZ press (gcell (M.part k) c)) (M.cellX x (gcell (M.part k) c)) i =
        (P k).slope (fun a => at0 state (cellNode M.npc M.c2n (gcell (M.part k) c) a * ndof + off)) (M.cellX x (gcell (M.part k) c)) i := by
      unfold Proj.slope scalarField
      congr 1
      refine sum_congr rfl fun a ha => ?_
      have hlt := hM.mesh.node_lt hcell (a := a) (by rw [FeModel.npc, ← h.d k hk']; exact mem_range.1 ha)
      unfold FeModel.cellZ
      rw [hpv _ hlt]
    rw [ez, at_zero, es]
    unfold share
    ring
  have e2 : ∑ j ∈ range (M.nn * M.dim), J.dense (n * M.dim + i) j = cellSum M (share M P z x n) := by
    have hm := matrix_of_affine (w := w) (D := fun q j => J.dense q j) hder
      (B := fun p => cellSum M fun k cell => (P k).mass abs (M.cellZ z cell) (M.cellX x cell) * ∑ i ∈ range M.dim,
        (P k).at (dofs M p cell) i * (P k).at (dofs M w cell) i)
      (b0 := -cellSum M fun k cell => (P k).mass abs (M.cellZ z cell) (M.cellX x cell) * ∑ i ∈ range M.dim,
        (P k).slope (M.cellZ press cell) (M.cellX x cell) i * (P k).at (dofs M w cell) i) (by
        intro a b p q
        unfold cellSum
        simp only [mul_sum, ← sum_add_distrib]
        refine sum_congr rfl fun k _ => sum_congr rfl fun c _ => sum_congr rfl fun j _ => ?_
        have := at_lin (P k) a b (dofs M p (gcell (M.part k) c)) (dofs M q (gcell (M.part k) c)) j
        rw [show dofs M (fun l => a * p l + b * q l) (gcell (M.part k) c) = fun l => a * dofs M p (gcell (M.part k) c) l +
          b * dofs M q (gcell (M.part k) c) l from rfl, this]
        ring) (by
        intro p q hpq
        unfold cellSum
        refine sum_congr rfl fun k hk => sum_congr rfl fun c hc => ?_
        dsimp only
        congr 1
        refine sum_congr rfl fun j hj => ?_
        have hd := h.d k (mem_range.1 hk)
        rw [at_congr (U := dofs M p (gcell (M.part k) c)) (V := dofs M q (gcell (M.part k) c)) (by rw [hd]; exact mem_range.1 hj) (fun l hl => hpq _ (hM.mesh.dof_lt ((hM.domOk k).1 c (mem_range.1 hc))
          (by rw [hnd, FeModel.npc, ← hd]; exact hl)))]) (by
        intro y
        rw [hwork, ← sub_eq_add_neg]
        unfold cellSum
        rw [← sum_sub_distrib]
        refine sum_congr rfl fun k _ => ?_
        rw [← sum_sub_distrib]
        refine sum_congr rfl fun c _ => ?_
        rw [← mul_sub, ← sum_sub_distrib]
        dsimp only
        congr 1
        exact sum_congr rfl fun j _ => by ring) fun _ => 1
    simp only [mul_one] at hm
    rw [show ∑ q ∈ range (M.nn * M.ndof), w q * ∑ j ∈ range (M.nn * M.ndof), J.dense q j =
      ∑ q ∈ range (M.nn * M.ndof), (∑ j ∈ range (M.nn * M.ndof), J.dense q j) * w q from
      sum_congr rfl fun q _ => mul_comm _ _, hsel fun q => ∑ j ∈ range (M.nn * M.ndof), J.dense q j, hnd] at hm
    rw [hm]
    unfold cellSum
    refine sum_congr rfl fun k hk => sum_congr rfl fun c _ => ?_
    have hk' := mem_range.1 hk
    dsimp only
    rw [hat' k hk' _ fun j => (P k).at _ j]
    rw [show dofs M (fun _ => (1 : ℝ)) (gcell (M.part k) c) = fun _ => 1 from rfl, at_one (by rw [h.d k hk']; exact hB k hk'), one_mul]
    rfl
  rw [e1, e2, div_mul_cancel₀ _ hw]
  ring

end

end Plato.Plast
