import Verif.Cond.Lemmas

/-!
# C83: the condensed Newton system is the linearised system of both equations
-/

namespace Plato.Cond
open Finset Plato Plato.Mech Plato.J2 Plato.Plast

/-- What the equations return for one set of states, cell by cell: `H` and `r` are the residuals of the local and of
the global equation, the others their derivatives. -/
structure Lin where
  r : Nat → ℝ
  H : Nat → Nat → ℝ
  RU : Nat → Nat → Nat → ℝ
  RC : Nat → Nat → Nat → ℝ
  HU : Nat → Nat → Nat → ℝ
  HC : Nat → Nat → Nat → ℝ

/-- The derivatives of the current unknowns that the methods return. -/
structure Jacs (M : FeModel) (nl : Nat) (E : Eqs) (g : GArgs ℝ) (t : Nat) (L : Lin) : Prop where
  rU : (E.rU g t).Sat (Is3 M.nc (ng M) (ng M) L.RU)
  rC : (E.rC g t).Sat (Is3 M.nc (ng M) nl L.RC)
  hU : (E.hU g.loc t).Sat (Is3 M.nc nl (ng M) L.HU)
  hC : (E.hC g.loc t).Sat (Is3 M.nc nl nl L.HC)

/-- The residuals that the methods return. -/
structure Vals (M : FeModel) (nl : Nat) (E : Eqs) (g : GArgs ℝ) (t : Nat) (L : Lin) : Prop where
  r : (E.r g t).Sat fun v => v.length = M.nn * M.ndof ∧ ∀ q, q < M.nn * M.ndof → at0 v q = L.r q
  h : (E.h g.loc t).Sat (Is2 M.nc nl L.H)

/-- All loops run over what they should run over. -/
structure Sched.Ok (M : FeModel) (S : Sched) : Prop where
  cell : ∀ i, IsSchedule (S.cell i) M.nc
  dofs : ∀ i, i < 4 → IsSchedule (S.dofs i) (M.nn * M.ndof)
  dofs4 : IsSchedule (S.dofs 4) (M.nn * M.dim)
  create : IsSchedule S.create M.nn
  rows : IsSchedule S.rows M.nn
  prod : IsSchedule S.prod M.nn
  jac : IsSchedule S.jac (M.nc * (ng M * ng M))
  vec : ∀ i, IsSchedule (S.vec i) (M.nc * ng M)

/-- Number of the unknown `l` of cell `c`. -/
abbrev dof (M : FeModel) (c l : Nat) : Nat := cellDof M.npc M.ndof M.c2n c l

/-- The **specification**: `du` and `dc` solve the equations of both residuals, linearised at the current states. -/
structure Linearised (M : FeModel) (nl : Nat) (L : Lin) (du : Nat → ℝ) (dc : Nat → Nat → ℝ) : Prop where
  loc : ∀ c i, c < M.nc → i < nl →
    L.H c i + ∑ l ∈ range (ng M), L.HU c i l * du (dof M c l) + ∑ j ∈ range nl, L.HC c i j * dc c j = 0
  glob : ∀ q, q < M.nn * M.ndof → L.r q + scatteredVec M.npc M.ndof M.c2n none M.nc (fun c l =>
    ∑ s ∈ range (ng M), L.RU c l s * du (dof M c s) + ∑ j ∈ range nl, L.RC c l j * dc c j) q = 0

section
variable {M : FeModel} (hM : M.Ok) (hnc : 0 < M.nc) {nl : Nat} (hnl : 0 < nl) {E : Eqs} {S : Sched} (hS : S.Ok M)
  {A : FState} {L : Lin} (hJ : Jacs M nl E A.g A.step L)
include hM hnc hnl hS hJ

omit hnc hnl hS hJ in
theorem ng_pos : 0 < ng M := by
  have := hM.ndof
  unfold ng FeModel.npc
  positivity

theorem inverseC_ok {out : V3 ℝ} (ho : out.d0 = M.nc ∧ out.d1 = nl ∧ out.d2 = nl)
    (hL : ∀ c, c < M.nc → ∀ m, m ≤ nl → blas3.Leading (L.HC c) m) :
    (inverseC M nl E S A out).Sat fun w => ∃ I, Is3 M.nc nl nl I w ∧ ∀ c, c < M.nc → blas3.IsInverse nl (L.HC c) (I c) := by
  unfold inverseC
  refine Res.Sat.bind hJ.hC ?_
  rintro J ⟨j0, j1, j2, j3⟩
  refine Res.Sat.bind (blas3.C66_inverse (hS.cell 0) (hS.cell 1) hnl hnc ⟨j0, j1, j2⟩ ho ?_) ?_
  · intro c hc m hm v hv j hj
    refine hL c hc m hm v (fun i hi => ?_) j hj
    rw [← hv i hi]
    exact sum_congr rfl fun q hq => by rw [j3 c i q hc (by omega) (by have := mem_range.1 hq; omega)]
  · rintro r ⟨r0, r1, r2, r3⟩
    refine Res.Sat.ok ⟨r.2.e, ⟨r0, r1, r2, fun _ _ _ _ _ _ => rfl⟩, fun c hc i j hi hj => ?_⟩
    have := r3 c hc i j hi hj
    constructor
    · rw [← this.1]
      exact sum_congr rfl fun q hq => by rw [j3 c i q hc hi (mem_range.1 hq)]
    · rw [← this.2]
      exact sum_congr rfl fun q hq => by rw [j3 c q j hc (mem_range.1 hq) hj]

/-- Entries of the condensed matrix of a cell. -/
noncomputable def cond (M : FeModel) (nl : Nat) (L : Lin) (I : Nat → Nat → Nat → ℝ) (c l s : Nat) : ℝ :=
  L.RU c l s - ∑ p ∈ range nl, L.RC c l p * ∑ q ∈ range nl, I c p q * L.HU c q s

theorem schur_ok {w : V3 ℝ} {I : Nat → Nat → Nat → ℝ} (hI : Is3 M.nc nl nl I w) :
    (schur M nl E S A w).Sat (Is3 M.nc (ng M) (ng M) fun c l s =>
      ∑ p ∈ range nl, L.RC c l p * ∑ q ∈ range nl, I c p q * L.HU c q s) := by
  have hg := ng_pos hM
  unfold schur
  refine Res.Sat.bind hJ.hU fun hU h1 => ?_
  refine Res.Sat.bind (multiply_ok (hS.cell 2) hnc hnl hg hnl hI h1) fun B h2 => ?_
  refine Res.Sat.bind hJ.rC fun rC h3 => ?_
  exact multiply_ok (hS.cell 3) hnc hg hg hnl h3 h2

theorem cellTangent_ok {w : V3 ℝ} {I : Nat → Nat → Nat → ℝ} (hI : Is3 M.nc nl nl I w) :
    (cellTangent M nl E S A w).Sat (Is3 M.nc (ng M) (ng M) (cond M nl L I)) := by
  have hg := ng_pos hM
  unfold cellTangent
  refine Res.Sat.bind (schur_ok hM hnc hnl hS hJ hI) fun s h4 => ?_
  refine Res.Sat.bind hJ.rU fun rU h5 => ?_
  exact update3_ok (hS.cell 4) hnc hg hg h4 h5

theorem tangentMatrix_ok {w : V3 ℝ} {I : Nat → Nat → Nat → ℝ} (hI : Is3 M.nc nl nl I w) :
    (tangentMatrix M nl E S A w).Sat fun K => K.WF M.nn M.nn ∧ K.rpb = M.ndof ∧ K.cpb = M.ndof ∧
      ∀ i j, i < M.nn * M.ndof → K.dense i j = scattered M.npc M.ndof M.ndof M.c2n none M.nc (cond M nl L I) i j := by
  unfold tangentMatrix
  refine Res.Sat.bind (cellTangent_ok hM hnc hnl hS hJ hI) ?_
  rintro k ⟨k0, k1, k2, k3⟩
  refine Res.Sat.bind (C05_createBlockMatrix hM.adj hM.ndof hM.ndof hS.create) ?_
  rintro K ⟨hwf, hr, hc, hrow, hz⟩
  have hcp := created_coupled hwf hM.mesh hM.graph (fun I hI => (hrow I hI).1)
  refine (C07_assembleJacobian hwf hr hc hM.mesh hcp (domOk_none _) (ws := V3.view k) k0.ge k1.ge k2.ge hS.jac).mono ?_
  rintro K' ⟨h1, -, -, h2, h3, h4⟩
  refine ⟨h1, h2, h3, fun i j hi => ?_⟩
  rw [h4 i j hi, hz, zero_add]
  unfold scattered
  refine sum_congr rfl fun c hc => sum_congr rfl fun l hl => sum_congr rfl fun s hs => ?_
  rw [show (V3.view k).data c l s = cond M nl L I c l s from
    k3 c l s (mem_range.1 hc) (mem_range.1 hl) (mem_range.1 hs)]

theorem tangentMatrixT_ok {w : V3 ℝ} {I : Nat → Nat → Nat → ℝ} (hI : Is3 M.nc nl nl I w) :
    (tangentMatrixT M nl E S A w).Sat fun K => K.WF M.nn M.nn ∧ K.rpb = M.ndof ∧ K.cpb = M.ndof ∧
      (∀ I, I < M.nn → (K.rowCols I).Perm (I :: nbrs M.orm M.oab I)) ∧
      ∀ i j, i < M.nn * M.ndof → K.dense i j = scattered M.npc M.ndof M.ndof M.c2n none M.nc (cond M nl L I) j i := by
  unfold tangentMatrixT
  refine Res.Sat.bind (cellTangent_ok hM hnc hnl hS hJ hI) ?_
  rintro k ⟨k0, k1, k2, k3⟩
  refine Res.Sat.bind (C05_createBlockMatrix hM.adj hM.ndof hM.ndof hS.create) ?_
  rintro K ⟨hwf, hr, hc, hrow, hz⟩
  have hcp := created_coupled hwf hM.mesh hM.graph (fun I hI => (hrow I hI).1)
  refine (C07_assembleTransposeJacobian hwf hr hc hM.mesh hcp (domOk_none _) (ws := V3.view k) k0.ge k1.ge k2.ge
    hS.jac).mono ?_
  rintro K' ⟨h1, e1, e2, h2, h3, h4⟩
  refine ⟨h1, h2, h3, fun I hI => ?_, fun i j hi => ?_⟩
  · have := (hrow I hI).1
    unfold Crs.rowCols at this ⊢
    rwa [e1, e2]
  rw [h4 i j hi, hz, zero_add]
  unfold scattered
  refine sum_congr rfl fun c hc => sum_congr rfl fun l hl => sum_congr rfl fun s hs => ?_
  rw [show (V3.view k).data c l s = cond M nl L I c l s from
    k3 c l s (mem_range.1 hc) (mem_range.1 hl) (mem_range.1 hs)]

variable (hV : Vals M nl E A.g A.step L)
include hV

theorem condensedResidual_ok {w : V3 ℝ} {I : Nat → Nat → Nat → ℝ} (hI : Is3 M.nc nl nl I w) :
    (condensedResidual M nl E S A w).Sat fun v => v.length = M.nn * M.ndof ∧ ∀ q, q < M.nn * M.ndof →
      at0 v q = L.r q - scatteredVec M.npc M.ndof M.c2n none M.nc (fun c l =>
        ∑ p ∈ range nl, L.RC c l p * ∑ j ∈ range nl, I c p j * L.H c j) q := by
  have hg := ng_pos hM
  unfold condensedResidual
  refine Res.Sat.bind hV.r ?_
  rintro r ⟨r0, r1⟩
  refine Res.Sat.bind hV.h fun h h1 => ?_
  refine Res.Sat.bind (mtvN_ok (hS.cell 5) hnc hnl hnl hI h1) fun v h2 => ?_
  refine Res.Sat.bind hJ.rC fun rC h3 => ?_
  refine Res.Sat.bind (mtvN_ok (hS.cell 6) hnc hg hnl h3 h2) ?_
  rintro w' ⟨w0, w1, w2⟩
  refine Res.Sat.bind (C08_assembleResidual (v := List.replicate (M.ndof * M.nn) (0 : ℝ)) (ws := V2.view w') hM.mesh
    (domOk_none _) (by rw [List.length_replicate, Nat.mul_comm]) w0.ge w1.ge (hS.vec 0)) ?_
  rintro c ⟨c0, c1⟩
  refine (blas1.C41_axpy (c0 ▸ hS.dofs 0 (by omega)) (c0.trans r0.symm)).mono ?_
  rintro z ⟨z0, z1⟩
  refine ⟨z0.trans c0, fun q hq => ?_⟩
  rw [z1 q (c0 ▸ hq), r1 q hq, c1 q, Crit.at0_replicate, zero_add,
    scatteredVec_congr (w := (V2.view w').data) (fun c l hc hl => w2 c l hc hl)]
  ring

/-- **C83**: the matrix and the right-hand side that the Newton solver assembles cell by cell stand for the two
linearised equations: a global increment solves the assembled system if and only if there is a local increment that
solves, together with it, both equations. -/
theorem C83_newton_system {out : V3 ℝ} (ho : out.d0 = M.nc ∧ out.d1 = nl ∧ out.d2 = nl)
    (hL : ∀ c, c < M.nc → ∀ m, m ≤ nl → blas3.Leading (L.HC c) m) :
    (newtonSystem M nl E S A out).Sat fun s => s.1.WF M.nn M.nn ∧ s.1.rpb = M.ndof ∧ s.1.cpb = M.ndof ∧
      s.2.length = M.nn * M.ndof ∧ ∀ du : Nat → ℝ,
        (∀ q, q < M.nn * M.ndof → ∑ j ∈ range (M.nn * M.ndof), s.1.dense q j * du j = at0 s.2 q) ↔
          ∃ dc, Linearised M nl L du dc := by
  have hg := ng_pos hM
  unfold newtonSystem
  refine Res.Sat.bind (inverseC_ok hM hnc hnl hS hJ ho hL) ?_
  rintro w ⟨I, hI, hinv⟩
  refine Res.Sat.bind (condensedResidual_ok hM hnc hnl hS hJ hV hI) ?_
  rintro r ⟨r0, r1⟩
  have hpos : 0 < r.length := by
    rw [r0]
    have h1 := hM.mesh.node_lt (cell := 0) (a := 0) hnc (by unfold FeModel.npc; omega)
    have h2 := hM.ndof
    have h3 : 0 < M.nn := by omega
    positivity
  refine Res.Sat.bind (blas1.C41_scale (r0 ▸ hS.dofs 1 (by omega)) hpos rfl) ?_
  rintro f ⟨f0, f1⟩
  refine Res.Sat.bind (tangentMatrix_ok hM hnc hnl hS hJ hI) ?_
  rintro K ⟨K0, K1, K2, K3⟩
  refine Res.Sat.ok ⟨K0, K1, K2, f0.trans r0, fun du => ?_⟩
  dsimp only
  -- the local increment that belongs to `du`
  have hloc : ∀ dc : Nat → Nat → ℝ,
      (∀ c i, c < M.nc → i < nl →
        L.H c i + ∑ l ∈ range (ng M), L.HU c i l * du (dof M c l) + ∑ j ∈ range nl, L.HC c i j * dc c j = 0) ↔
      ∀ c p, c < M.nc → p < nl → dc c p = - ∑ q ∈ range nl, I c p q *
        (L.H c q + ∑ l ∈ range (ng M), L.HU c q l * du (dof M c l)) := by
    intro dc
    constructor
    · intro h c p hc hp
      have e : dc c p = ∑ j ∈ range nl, (∑ q ∈ range nl, I c p q * L.HC c q j) * dc c j := by
        rw [sum_congr rfl fun j hj => by rw [(hinv c hc p j hp (mem_range.1 hj)).2]]
        rw [sum_eq_single_of_mem p (mem_range.2 hp) (fun j _ hj => by rw [if_neg (Ne.symm hj), zero_mul]), if_pos rfl, one_mul]
      rw [e]
      simp only [sum_mul]
      rw [sum_comm, ← sum_neg_distrib]
      refine sum_congr rfl fun q hq => ?_
      have h' := h c q hc (mem_range.1 hq)
      rw [sum_congr rfl fun j _ => mul_assoc _ _ _, ← mul_sum]
      have e2 : ∑ j ∈ range nl, L.HC c q j * dc c j =
        -(L.H c q + ∑ l ∈ range (ng M), L.HU c q l * du (dof M c l)) := by linarith
      rw [e2]; ring
    · intro h c i hc hi
      have e0 : ∑ j ∈ range nl, L.HC c i j * dc c j = ∑ j ∈ range nl, L.HC c i j * - ∑ q ∈ range nl, I c j q *
          (L.H c q + ∑ l ∈ range (ng M), L.HU c q l * du (dof M c l)) :=
        sum_congr rfl fun j hj => by rw [h c j hc (mem_range.1 hj)]
      rw [e0]
      have e : ∑ y ∈ range nl, ∑ x ∈ range nl, L.HC c i x * (I c x y *
          (L.H c y + ∑ l ∈ range (ng M), L.HU c y l * du (dof M c l))) =
          L.H c i + ∑ l ∈ range (ng M), L.HU c i l * du (dof M c l) := by
        rw [sum_congr rfl fun y hy => by
          rw [sum_congr rfl fun x _ => (mul_assoc _ _ _).symm, ← sum_mul, (hinv c hc i y hi (mem_range.1 hy)).1]]
        rw [sum_eq_single_of_mem i (mem_range.2 hi) (fun j _ hj => by rw [if_neg (Ne.symm hj), zero_mul]), if_pos rfl, one_mul]
      have e1 : ∑ j ∈ range nl, L.HC c i j * - ∑ q ∈ range nl, I c j q *
          (L.H c q + ∑ l ∈ range (ng M), L.HU c q l * du (dof M c l)) =
          - ∑ y ∈ range nl, ∑ x ∈ range nl, L.HC c i x * (I c x y *
            (L.H c y + ∑ l ∈ range (ng M), L.HU c y l * du (dof M c l))) := by
        rw [sum_comm, ← sum_neg_distrib]
        exact sum_congr rfl fun j _ => by rw [mul_neg, mul_sum]
      rw [e1, e]; ring
  -- the global equation with that local increment
  have hglob : ∀ dc : Nat → Nat → ℝ, (∀ c p, c < M.nc → p < nl → dc c p = - ∑ q ∈ range nl, I c p q *
        (L.H c q + ∑ l ∈ range (ng M), L.HU c q l * du (dof M c l))) → ∀ q, q < M.nn * M.ndof →
      ∑ j ∈ range (M.nn * M.ndof), K.dense q j * du j - at0 f q =
      L.r q + scatteredVec M.npc M.ndof M.c2n none M.nc (fun c l =>
        ∑ s ∈ range (ng M), L.RU c l s * du (dof M c s) + ∑ j ∈ range nl, L.RC c l j * dc c j) q := by
    intro dc hdc q hq
    rw [sum_congr rfl fun j _ => by rw [K3 q j hq], scattered_times hM.mesh hM.ndof, f1 q (r0 ▸ hq), r1 q hq]
    have key : ∀ a b : Nat → Nat → ℝ, scatteredVec M.npc M.ndof M.c2n none M.nc a q -
        scatteredVec M.npc M.ndof M.c2n none M.nc b q =
        scatteredVec M.npc M.ndof M.c2n none M.nc (fun c l => a c l + -b c l) q := by
      intro a b
      rw [Bnd.scatteredVec_add]
      have : scatteredVec M.npc M.ndof M.c2n none M.nc (fun c l => -b c l) q =
          - scatteredVec M.npc M.ndof M.c2n none M.nc b q := by
        unfold scatteredVec
        rw [← sum_neg_distrib]
        refine sum_congr rfl fun c _ => ?_
        rw [← sum_neg_distrib]
        exact sum_congr rfl fun l _ => by split_ifs <;> simp
      rw [this]; ring
    rw [show ∀ a b x : ℝ, a - (-1) * (b - x) = b + (a - x) by intros; ring, key]
    congr 1
    refine scatteredVec_congr (fun c l hc hl => ?_) q
    have e : ∑ j ∈ range nl, L.RC c l j * dc c j = - (∑ p ∈ range nl, L.RC c l p * ∑ j ∈ range nl, I c p j * L.H c j) -
        ∑ p ∈ range nl, L.RC c l p * ∑ y ∈ range nl, I c p y * ∑ s ∈ range (ng M), L.HU c y s * du (dof M c s) := by
      rw [← sum_neg_distrib, ← sum_sub_distrib]
      refine sum_congr rfl fun p hp => ?_
      rw [hdc c p hc (mem_range.1 hp)]
      simp only [mul_add, sum_add_distrib]
      ring
    have e2 : ∑ s ∈ range (ng M), cond M nl L I c l s * du (dof M c s) =
        ∑ s ∈ range (ng M), L.RU c l s * du (dof M c s) -
        ∑ p ∈ range nl, L.RC c l p * ∑ y ∈ range nl, I c p y * ∑ s ∈ range (ng M), L.HU c y s * du (dof M c s) := by
      simp only [cond, sub_mul, sum_sub_distrib]
      congr 1
      simp only [sum_mul, mul_sum]
      rw [sum_comm]
      refine sum_congr rfl fun p _ => ?_
      rw [sum_comm]
      exact sum_congr rfl fun y _ => sum_congr rfl fun s _ => by ring
    show ∑ s ∈ range (ng M), cond M nl L I c l s * du (dof M c s) + _ = _
    rw [e, e2]; ring
  constructor
  · intro h
    refine ⟨fun c p => - ∑ q ∈ range nl, I c p q * (L.H c q + ∑ l ∈ range (ng M), L.HU c q l * du (dof M c l)),
      (hloc _).2 fun _ _ _ _ => rfl, fun q hq => ?_⟩
    rw [← hglob _ (fun _ _ _ _ => rfl) q hq, h q hq, sub_self]
  · rintro ⟨dc, h1, h2⟩ q hq
    have := hglob dc ((hloc dc).1 h1) q hq
    rw [h2 q hq] at this
    linarith

end
end Plato.Cond
