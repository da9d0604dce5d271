import Verif.Cond.Adjoint
import Verif.Cond.SweepModel
import Verif.Bc.ConstraintsProps

/-!
# C85: the gradient by the control is the derivative of the criterion along the tangents
-/

namespace Plato.Cond
open Finset Plato Plato.Mech Plato.J2 Plato.Plast

/-! ## Partial correctness -/

/-- If the computation returns a value then that value has the property. -/
def Post {α : Type} (r : Res α) (P : α → Prop) : Prop := ∀ a, r = .ok a → P a

theorem Post.of {α : Type} {r : Res α} {P : α → Prop} (h : r.Sat P) : Post r P := by
  obtain ⟨a, rfl, ha⟩ := h
  intro b hb
  cases hb
  exact ha

theorem Post.bind {α β : Type} {r : Res α} {k : α → Res β} {P : α → Prop} {Q : β → Prop} (h : Post r P)
    (hk : ∀ a, P a → Post (k a) Q) : Post (r >>= k) Q := by
  intro b hb
  cases r with
  | ok a => exact hk a (h a rfl) b hb
  | err m => cases hb
  | ub => cases hb

theorem Post.ok {α : Type} {a : α} {P : α → Prop} (h : P a) : Post (Res.ok a) P := by
  intro b hb
  cases hb
  exact h

theorem Post.mono {α : Type} {r : Res α} {P Q : α → Prop} (h : Post r P) (hk : ∀ a, P a → Q a) : Post r Q :=
  fun a ha => hk a (h a ha)

/-! ## The constrained system -/

/-- The node graph lists no node twice and is symmetric. -/
structure Graph (M : FeModel) : Prop where
  nodup : ∀ I, I < M.nn → (I :: nbrs M.orm M.oab I).Nodup
  symm : ∀ I J, I < M.nn → J < M.nn → J ∈ nbrs M.orm M.oab I → I ∈ nbrs M.orm M.oab J

structure Bcs.Ok (M : FeModel) (D : Bcs) : Prop where
  some : 0 < D.dofs.length
  nodup : D.dofs.Nodup
  lt : ∀ d ∈ D.dofs, d < M.nn * M.ndof
  merge : ∀ p, IsMerge p (D.sched p)
  vals : IsSchedule D.vals D.dofs.length
  rows : IsSchedule D.rows D.dofs.length

/-- What the linear solver returns solves the system. -/
def Solver (ls : Crs ℝ → List ℝ → List ℝ → Res (List ℝ)) : Prop :=
  ∀ K x f, Post (ls K x f) fun y => y.length = f.length ∧
    ∀ i, i < f.length → ∑ j ∈ range f.length, K.dense i j * at0 y j = at0 f i

theorem globalAdjoint_ok {M : FeModel} {S : Sched} (hS : S.Ok M) {ls : Crs ℝ → List ℝ → List ℝ → Res (List ℝ)}
    (hls : Solver ls) {D : Bcs} (hD : D.Ok M) {K : Crs ℝ} (hK : BcMatrix K M.nn M.ndof) {f old : List ℝ}
    (hf : f.length = M.nn * M.ndof) (ho : old.length = M.nn * M.ndof) :
    Post (globalAdjoint M S ls D K f old) fun y => y.length = M.nn * M.ndof ∧ (∀ q ∈ D.dofs, at0 y q = 0) ∧
      ∀ q, q < M.nn * M.ndof → q ∉ D.dofs → ∑ j ∈ range (M.nn * M.ndof), K.dense q j * at0 y j = at0 f q := by
  have hpos : 0 < M.nn * M.ndof := by
    obtain ⟨d, hd⟩ := List.exists_mem_of_length_pos hD.some
    exact lt_of_le_of_lt (Nat.zero_le _) (hD.lt d hd)
  have hcon : (constrain M D K f).Sat fun s => s.2.length = f.length ∧
      (∀ i j, i < M.nn * M.ndof → j < M.nn * M.ndof → s.1.dense i j = constrainedEntry K.dense D.dofs i j) ∧
      (∀ q ∈ D.dofs, at0 s.2 q = 0) ∧ ∀ i, i < M.nn * M.ndof → i ∉ D.dofs → at0 s.2 i = at0 f i := by
    unfold constrain
    rw [if_neg (by have := hD.some; omega)]
    refine Res.Sat.bind (blas1.C41_scale (a := (0 : ℝ)) (by simpa using hD.vals) (by simpa using hD.some) rfl) ?_
    rintro v ⟨v0, v1⟩
    rw [List.length_replicate] at v0 v1
    refine (C09_applyBlockConstraints hK hD.merge hD.rows 1 hf hD.nodup hD.lt v0).mono ?_
    rintro ⟨K', f'⟩ ⟨-, h1, h2, h3, h4⟩
    refine ⟨h1, h2, fun q hq => ?_, fun i hi hn => ?_⟩
    · obtain ⟨t, ht, rfl⟩ := List.getElem_of_mem hq
      have := h3 t ht
      rw [show atN D.dofs t = D.dofs[t] from at0_eq ht] at this
      rw [this, v1 t ht]
      ring
    · rw [h4 i hi hn, reducedRhs, sum_eq_zero, sub_zero]
      intro t ht
      rw [v1 t (mem_range.1 ht)]
      ring
  unfold globalAdjoint
  refine Post.bind (Post.of hcon) ?_
  rintro ⟨K', f'⟩ ⟨h1, h2, h3, h4⟩
  dsimp only at h1 h2 h3 h4 ⊢
  rw [blas1.C41_fill (ho ▸ hS.dofs 1 (by omega)) (by omega) rfl, Res.ok_bind]
  refine (hls K' _ f').mono ?_
  rintro y ⟨y0, y1⟩
  rw [h1, hf] at y0 y1
  have hz : ∀ q ∈ D.dofs, at0 y q = 0 := by
    intro q hq
    have hlt := hD.lt q hq
    have := y1 q hlt
    rw [h3 q hq, sum_congr rfl fun j hj => by rw [h2 q j hlt (mem_range.1 hj)], sum_eq_single_of_mem q (mem_range.2 hlt)] at this
    · simpa [constrainedEntry, hq] using this
    · intro j _ hj
      rw [constrainedEntry, if_pos (Or.inl hq), if_neg (Ne.symm hj), zero_mul]
  refine ⟨y0, hz, fun q hq hn => ?_⟩
  rw [← h4 q hq hn, ← y1 q hq]
  refine sum_congr rfl fun j hj => ?_
  rw [h2 q j hq (mem_range.1 hj), constrainedEntry]
  by_cases hjd : j ∈ D.dofs
  · rw [hz j hjd]; ring
  · rw [if_neg (by tauto)]

/-! ## Data of a step and tangents -/

/-- What the equations and the criterion return at one step. -/
structure Step where
  L : Lin
  F : CriLin
  N : NextLin
  RN : Nat → Nat → Nat → ℝ
  RZ : Nat → Nat → Nat → ℝ
  PZ : Nat → Nat → Nat → ℝ
  HZ : Nat → Nat → Nat → ℝ
  fZ : Nat → Nat → ℝ
  /-- sums of the rows of the matrix of the projection -/
  rs : Nat → ℝ

/-- Number of the control of node `n` of cell `c`. -/
abbrev zdof (M : FeModel) (c n : Nat) : Nat := cellDof M.npc 1 M.c2n c n

structure ProjStepOk (M : FeModel) (E : Eqs) (P : ProjEq) (off : Nat) (A : FState) (Q : Step) : Prop where
  rNT : (E.rNT A.g A.step).Sat fun J => J.WF M.nn M.nn ∧ J.rpb = M.dim ∧ J.cpb = M.ndof ∧
    ∀ i j, i < M.nn * M.dim → J.dense i j = scattered M.npc M.ndof M.dim M.c2n none M.nc Q.RN j i
  pUT : ∀ p : List ℝ, p.length = M.nn → (∀ i, i < M.nn → at0 p i = at0 A.g.loc.up (i * M.ndof + off)) →
    (P.pUT A.g.n p A.g.loc.z A.step).Sat fun J => J.WF M.nn M.nn ∧ J.rpb = M.dim ∧ J.cpb = M.dim ∧
      ∀ q, q < M.nn * M.dim → ∑ j ∈ range (M.nn * M.dim), J.dense q j = Q.rs q
  rs : ∀ q, q < M.nn * M.dim → Q.rs q ≠ 0
  press : A.press.length = M.nn
  up : A.g.loc.up.length = M.nn * M.ndof

structure ControlOk (M : FeModel) (nl : Nat) (E : Eqs) (P : ProjEq) (A : FState) (Q : Step) : Prop where
  rZ : (E.rZ A.g A.step).Sat (Is3 M.nc (ng M) M.npc Q.RZ)
  pZ : (P.pZ A.g.n A.press A.g.loc.z A.step).Sat (Is3 M.nc (M.npc * M.dim) M.npc Q.PZ)
  hZ : (E.hZ A.g.loc A.step).Sat (Is3 M.nc nl M.npc Q.HZ)

/-- What was at the step before `k`; zero before the first. -/
def before {α β : Type} [Zero β] (f : Nat → α → β) (k : Nat) (a : α) : β := if k = 0 then 0 else f (k - 1) a

/-- The **specification**: `du k`, `dc k`, `dn k` are the derivatives along `dz` of the global states, the local states
and the projected pressure gradient of step `k`: the equations of every step, differentiated. -/
structure Tangent (M : FeModel) (nl off : Nat) (fixed : List Nat) (n : Nat) (Q : Nat → Step) (du : Nat → Nat → ℝ)
    (dc : Nat → Nat × Nat → ℝ) (dn : Nat → Nat → ℝ) (dz : Nat → ℝ) : Prop where
  loc : ∀ k, k < n → ∀ c i, c < M.nc → i < nl →
    ∑ l ∈ range (ng M), (Q k).L.HU c i l * du k (dof M c l) + ∑ j ∈ range nl, (Q k).L.HC c i j * dc k (c, j) +
    ∑ l ∈ range (ng M), (Q k).N.HUp c i l * before du k (dof M c l) + ∑ j ∈ range nl, (Q k).N.HCp c i j * before dc k (c, j) +
    ∑ m ∈ range M.npc, (Q k).HZ c i m * dz (zdof M c m) = 0
  glob : ∀ k, k < n → ∀ q, q < M.nn * M.ndof → q ∉ fixed → scatteredVec M.npc M.ndof M.c2n none M.nc (fun c l =>
    ∑ s ∈ range (ng M), (Q k).L.RU c l s * du k (dof M c s) + ∑ j ∈ range nl, (Q k).L.RC c l j * dc k (c, j) +
    ∑ s ∈ range (ng M), (Q k).N.RUp c l s * before du k (dof M c s) + ∑ j ∈ range nl, (Q k).N.RCp c l j * before dc k (c, j) +
    ∑ s ∈ range (M.npc * M.dim), (Q k).RN c l s * dn k (pdof M c s) + ∑ m ∈ range M.npc, (Q k).RZ c l m * dz (zdof M c m)) q = 0
  fixed : ∀ k, k < n → ∀ q ∈ fixed, du k q = 0
  first : ∀ q, q < M.nn * M.dim → dn 0 q = 0
  proj : ∀ k, k < n → k ≠ 0 → ∀ q, q < M.nn * M.dim → (Q k).rs q * dn k q + scatteredVec M.npc M.dim M.c2n none M.nc (fun c l =>
    ∑ m ∈ range M.npc, (Q k).N.PN c l m * before du k (dof M c (m * M.ndof + off)) +
    ∑ m ∈ range M.npc, (Q k).PZ c l m * dz (zdof M c m)) q = 0

/-- Derivative along the tangents of what the criterion takes from step `k`. -/
noncomputable def criterionAlong (M : FeModel) (nl : Nat) (Q : Nat → Step) (du : Nat → Nat → ℝ) (dc : Nat → Nat × Nat → ℝ)
    (dz : Nat → ℝ) (k : Nat) : ℝ :=
  ∑ c ∈ range M.nc, (∑ l ∈ range (ng M), (Q k).F.fU c l * du k (dof M c l) + ∑ i ∈ range nl, (Q k).F.fC c i * dc k (c, i) +
    ∑ l ∈ range (ng M), (Q k).N.fUp c l * before du k (dof M c l) + ∑ i ∈ range nl, (Q k).N.fCp c i * before dc k (c, i) +
    ∑ m ∈ range M.npc, (Q k).fZ c m * dz (zdof M c m))

/-! ## Sums over cells -/

/-- Bilinear form of the matrices of the cells. -/
noncomputable def bil (nc n m : Nat) (X : Nat → Nat → Nat → ℝ) (x y : Nat → Nat → ℝ) : ℝ :=
  ∑ c ∈ range nc, ∑ l ∈ range n, ∑ s ∈ range m, X c l s * x c l * y c s

theorem bilN (nc n m : Nat) (X : Nat → Nat → Nat → ℝ) (x y : Nat → Nat → ℝ) :
    ∑ c ∈ range nc, ∑ l ∈ range n, (∑ s ∈ range m, X c l s * y c s) * x c l = bil nc n m X x y := by
  unfold bil
  refine sum_congr rfl fun c _ => sum_congr rfl fun l _ => ?_
  rw [sum_mul]
  exact sum_congr rfl fun s _ => by ring

theorem bilT (nc n m : Nat) (X : Nat → Nat → Nat → ℝ) (x y : Nat → Nat → ℝ) :
    ∑ c ∈ range nc, ∑ s ∈ range m, (∑ l ∈ range n, X c l s * x c l) * y c s = bil nc n m X x y := by
  unfold bil
  refine sum_congr rfl fun c _ => ?_
  simp only [sum_mul]
  rw [sum_comm]

/-- Sum over the components of the cells that hold the pressure. -/
theorem sum_offset {n d off : Nat} (hoff : off < d) (x y : Nat → ℝ) :
    ∑ l ∈ range (n * d), (if l % d = off then x (l / d) else 0) * y l = ∑ m ∈ range n, x m * y (m * d + off) := by
  have hd : 0 < d := by omega
  have h : ∀ m, (m * d + off) % d = off ∧ (m * d + off) / d = m := fun m => by
    rw [Nat.mul_comm, Nat.mul_add_mod, Nat.mod_eq_of_lt hoff, Nat.mul_add_div hd, Nat.div_eq_of_lt hoff]
    exact ⟨rfl, rfl⟩
  symm
  refine Finset.sum_of_injOn (fun m => m * d + off) ?_ ?_ ?_ ?_
  · intro a _ b _ e
    have e' : a * d + off = b * d + off := e
    have := congrArg (· / d) e'
    simpa [(h a).2, (h b).2] using this
  · intro m hm
    have hm' := mem_range.1 (mem_coe.1 hm)
    refine mem_coe.2 (mem_range.2 ?_)
    show m * d + off < n * d
    calc m * d + off < m * d + d := by omega
      _ = (m + 1) * d := by ring
      _ ≤ n * d := Nat.mul_le_mul_right _ hm'
  · intro l hl hn
    split_ifs with e
    · exfalso
      refine hn ⟨l / d, mem_coe.2 (mem_range.2 (Nat.div_lt_of_lt_mul (by rw [Nat.mul_comm]; exact mem_range.1 hl))), ?_⟩
      show l / d * d + off = l
      have := Nat.div_add_mod l d
      rw [Nat.mul_comm] at this
      omega
    · rw [zero_mul]
  · intro m hm
    show x m * y (m * d + off) = (if (m * d + off) % d = off then x ((m * d + off) / d) else 0) * y (m * d + off)
    rw [(h m).1, (h m).2, if_pos rfl]

/-! ## The parts of a step -/

/-- The remaining loops of a step. -/
structure Sched.Ok2 (M : FeModel) (nl : Nat) (S : Sched) : Prop where
  ok : S.Ok M
  dofs5 : IsSchedule (S.dofs 5) (M.nc * nl)
  grad : IsSchedule S.grad (M.nc * (M.npc * 1))

section
variable {M : FeModel} (hM : M.Ok) (hnc : 0 < M.nc) {nl : Nat} (hnl : 0 < nl) {S : Sched} (hS : S.Ok2 M nl)
include hM hnc hnl hS

omit hnl in
theorem nn_pos : 0 < M.nn := by
  have h1 := hM.mesh.node_lt (cell := 0) (a := 0) hnc (by unfold FeModel.npc; omega)
  omega

theorem copyAdjoint_ok {a b : Adj} (ha : a.Ok M nl) (hb : b.Ok M nl) :
    (copyAdjoint S a b).Sat fun c => c.Ok M nl ∧ (∀ q, q < M.nn * M.ndof → at0 c.lam q = at0 a.lam q) ∧
      (∀ q, q < M.nc * nl → at0 c.mu q = at0 a.mu q) ∧ ∀ q, q < M.nn * M.dim → at0 c.gam q = at0 a.gam q := by
  unfold copyAdjoint
  refine Res.Sat.bind (blas1.C41_update (ha.mu ▸ hS.dofs5) rfl rfl (ha.mu.trans hb.mu.symm)) ?_
  rintro mu ⟨m0, m1⟩
  refine Res.Sat.bind (blas1.C41_update (ha.lam ▸ hS.ok.dofs 0 (by omega)) rfl rfl (ha.lam.trans hb.lam.symm)) ?_
  rintro lam ⟨l0, l1⟩
  refine Res.Sat.bind (blas1.C41_update (ha.gam ▸ hS.ok.dofs4) rfl rfl (ha.gam.trans hb.gam.symm)) ?_
  rintro gam ⟨g0, g1⟩
  refine Res.Sat.ok ⟨⟨l0.trans ha.lam, m0.trans ha.mu, g0.trans ha.gam⟩, fun q hq => ?_, fun q hq => ?_, fun q hq => ?_⟩
  · rw [l1 q (ha.lam ▸ hq)]; ring
  · rw [m1 q (ha.mu ▸ hq)]; ring
  · rw [g1 q (ha.gam ▸ hq)]; ring

variable {E : Eqs} {P : ProjEq} {A : FState} {Q : Step}

theorem addPdeZ_ok (hZ : ControlOk M nl E P A Q) {a : Adj} (ha : a.Ok M nl) {g : List ℝ} (hg : g.length = M.nn) :
    (addPdeZ M nl E S P A a g).Sat fun g' => g'.length = M.nn ∧ ∀ q, q < M.nn → at0 g' q = at0 g q +
      scatteredVec M.npc 1 M.c2n none M.nc (fun c m => ∑ l ∈ range (ng M), Q.RZ c l m * at0 a.lam (dof M c l) +
        ∑ l ∈ range (M.npc * M.dim), Q.PZ c l m * at0 a.gam (pdof M c l) +
        ∑ j ∈ range nl, Q.HZ c j m * at0 a.mu (c * nl + j)) q := by
  have hn : 0 < M.npc := by unfold FeModel.npc; omega
  have hd := hM.dim
  have hp : 0 < M.npc * M.dim := Nat.mul_pos hn hd
  unfold addPdeZ
  refine Res.Sat.bind (P := Is2 M.nc M.npc fun c m => ∑ l ∈ range (ng M), Q.RZ c l m * at0 a.lam (dof M c l) +
        ∑ l ∈ range (M.npc * M.dim), Q.PZ c l m * at0 a.gam (pdof M c l) +
        ∑ j ∈ range nl, Q.HZ c j m * at0 a.mu (c * nl + j)) ?_ ?_
  · unfold pdeProducts
    refine Res.Sat.bind (lamWs_ok hM hS.ok 27 ha.lam) fun lam h1 => ?_
    refine Res.Sat.bind hZ.rZ fun r h2 => ?_
    refine Res.Sat.bind (mtvT_ok (hS.ok.cell 28) hnc (ng_pos hM) hn h2 h1 (Is2.zero _ _)) fun g h3 => ?_
    refine Res.Sat.bind (gamWs_ok hM hS.ok 29 ha.gam) fun gam h4 => ?_
    refine Res.Sat.bind hZ.pZ fun p h5 => ?_
    refine Res.Sat.bind (mtvT_ok (hS.ok.cell 30) hnc hp hn h5 h4 h3) fun g h6 => ?_
    refine Res.Sat.bind (muWs_ok hS.ok 31 ha.mu) fun mu h7 => ?_
    refine Res.Sat.bind hZ.hZ fun h h8 => ?_
    refine (mtvT_ok (hS.ok.cell 32) hnc hnl hn h8 h7 h6).mono fun _ k => k.congr fun c m _ _ => ?_
    ring
  · rintro w ⟨w0, w1, w2⟩
    refine (C08_assembleResidual (ws := V2.view w) hM.mesh (domOk_none _) (d := 1) (by omega) w0.ge
      (by rw [Nat.mul_one]; exact w1.ge) hS.grad).mono ?_
    rintro v ⟨v0, v1⟩
    refine ⟨by omega, fun q _ => ?_⟩
    rw [v1 q]
    congr 1
    exact scatteredVec_congr (fun c m hc hm => w2 c m hc (by rwa [Nat.mul_one] at hm)) q

theorem projAdjoint_ok {off : Nat} (hoff : off < M.ndof) (hP : A.step ≠ 0 → ProjStepOk M E P off A Q) {lam old : List ℝ}
    (hl : lam.length = M.nn * M.ndof) (ho : old.length = M.nn * M.dim) :
    (projAdjoint M E S P off A lam old).Sat fun g => g.length = M.nn * M.dim ∧
      (A.step = 0 → ∀ q, at0 g q = 0) ∧
      (A.step ≠ 0 → ∀ q, q < M.nn * M.dim → Q.rs q * at0 g q + scatteredVec M.npc M.dim M.c2n none M.nc (fun c s =>
        ∑ l ∈ range (ng M), Q.RN c l s * at0 lam (dof M c l)) q = 0) := by
  have hnn := nn_pos hM hnc hS
  have hd := hM.dim
  have hpos : 0 < M.nn * M.dim := Nat.mul_pos hnn hd
  have e := blas1.C41_fill (order := S.dofs 4) (fin := fun _ => true) (a := (0 : ℝ)) (x := old) (ho ▸ hS.ok.dofs4) (by omega) rfl
  unfold projAdjoint
  split_ifs with h0
  · rw [e]
    exact Res.Sat.ok ⟨by rw [List.length_replicate, ho], fun _ q => Crit.at0_replicate _ _, fun h => absurd h0 h⟩
  have hP := hP h0
  refine Res.Sat.bind hP.rNT ?_
  rintro J ⟨J0, J1, J2, J3⟩
  refine Res.Sat.bind (C01_matvec J0 lam (List.replicate (M.nn * M.dim) 0) (by rw [hl, J2]) (by rw [List.length_replicate, J1])
    hS.ok.prod) ?_
  rintro v ⟨v0, v1⟩
  rw [List.length_replicate] at v0
  refine Res.Sat.bind (blas1.C41_scale (v0 ▸ hS.ok.dofs4) (by omega) rfl) ?_
  rintro w ⟨w0, w1⟩
  refine Res.Sat.bind (blas1.C41_extract (by rw [List.length_replicate, hP.press]; exact hS.ok.prod)
    (by rw [List.length_replicate, hP.press]; exact hnn) ?_) ?_
  · rw [List.length_replicate, hP.press, hP.up]
    calc (M.nn - 1) * M.ndof + off < (M.nn - 1) * M.ndof + M.ndof := by omega
      _ = (M.nn - 1 + 1) * M.ndof := by ring
      _ = M.nn * M.ndof := by rw [Nat.sub_add_cancel hnn]
  rintro p ⟨p0, p1⟩
  rw [List.length_replicate, hP.press] at p0 p1
  refine Res.Sat.bind (hP.pUT p p0 p1) ?_
  rintro T ⟨T0, T1, T2, T3⟩
  rw [e, Res.ok_bind]
  refine (rowSummed_ok T0 T1 T2 (by rw [List.length_replicate, ho]) (w0.trans v0) hS.ok.rows).mono ?_
  rintro y ⟨y0, y1⟩
  refine ⟨y0, fun h => absurd h h0, fun _ q hq => ?_⟩
  rw [y1 q hq, T3 q hq, mul_div_cancel₀ _ (hP.rs q hq), w1 q (v0 ▸ hq), v1 q (J1 ▸ hq), Crit.at0_replicate, zero_add, J2,
    sum_congr rfl fun j _ => by rw [J3 q j hq]]
  rw [neg_one_mul, neg_add_eq_zero]
  exact scatteredRect_timesT hM.mesh hM.ndof _ _ _

end

/-! ## What a step leaves for the one before it -/

/-- Derivative, along the tangents of the step before, of what the steps from `k` on still depend on. -/
noncomputable def carried (M : FeModel) (nl off : Nat) (N : NextLin) (a : Adj) (du : Nat → ℝ) (dc : Nat × Nat → ℝ) : ℝ :=
  ∑ c ∈ range M.nc, (∑ l ∈ range (ng M), nextU M nl off N a c l * du (dof M c l) + ∑ i ∈ range nl, nextC M nl N a c i * dc (c, i))

section
variable {M : FeModel} (hM : M.Ok) {nl off : Nat} (hoff : off < M.ndof) {fixed : List Nat} {n : Nat} {Q : Nat → Step}
  {du : Nat → Nat → ℝ} {dc : Nat → Nat × Nat → ℝ} {dn : Nat → Nat → ℝ} {dz : Nat → ℝ}
  (hT : Tangent M nl off fixed n Q du dc dn dz)
include hM hoff hT

/-- The identity of one step. -/
theorem step_identity {k : Nat} (hk : k < n) {last : Nat} {A : FState} (hA : A.step = k) {b a : Adj} {N' : NextLin}
    (h1 : ∀ c i, c < M.nc → i < nl → stationC M nl last (Q k).L A (Q k).F N' b a.lam a.mu c i = 0)
    (h2 : ∀ q, q < M.nn * M.ndof → q ∉ fixed → stationU M nl last off (Q k).L A (Q k).F N' b a.lam a.mu q = 0)
    (h3 : ∀ q ∈ fixed, at0 a.lam q = 0)
    (h4 : k = 0 → ∀ q, at0 a.gam q = 0)
    (h5 : k ≠ 0 → ∀ q, q < M.nn * M.dim → (Q k).rs q * at0 a.gam q + scatteredVec M.npc M.dim M.c2n none M.nc (fun c s =>
        ∑ l ∈ range (ng M), (Q k).RN c l s * at0 a.lam (dof M c l)) q = 0) :
    criterionAlong M nl Q du dc dz k + (if k ≠ last then carried M nl off N' b (du k) (dc k) else 0) =
      carried M nl off (Q k).N a (before du k) (before dc k) +
      ∑ q ∈ range (M.nn * 1), (scatteredVec M.npc 1 M.c2n none M.nc (fun c m =>
        ∑ l ∈ range (ng M), (Q k).RZ c l m * at0 a.lam (dof M c l) +
        ∑ l ∈ range (M.npc * M.dim), (Q k).PZ c l m * at0 a.gam (pdof M c l) +
        ∑ j ∈ range nl, (Q k).HZ c j m * at0 a.mu (c * nl + j)) q +
        scatteredVec M.npc 1 M.c2n none M.nc (Q k).fZ q) * dz q := by
  set lam : Nat → Nat → ℝ := fun c l => at0 a.lam (dof M c l) with hlam
  set mu : Nat → Nat → ℝ := fun c j => at0 a.mu (c * nl + j) with hmu
  set gam : Nat → Nat → ℝ := fun c l => at0 a.gam (pdof M c l) with hgam
  set U : Nat → Nat → ℝ := fun c l => du k (dof M c l) with hU
  set Up : Nat → Nat → ℝ := fun c l => before du k (dof M c l) with hUp
  set Cc : Nat → Nat → ℝ := fun c j => dc k (c, j) with hCc
  set Cp : Nat → Nat → ℝ := fun c j => before dc k (c, j) with hCp
  set Nn : Nat → Nat → ℝ := fun c s => dn k (pdof M c s) with hNn
  set Z : Nat → Nat → ℝ := fun c m => dz (zdof M c m) with hZ
  set Pp : Nat → Nat → ℝ := fun c m => before du k (dof M c (m * M.ndof + off)) with hPp
  -- loads
  have e0 : criterionAlong M nl Q du dc dz k + (if k ≠ last then carried M nl off N' b (du k) (dc k) else 0) =
      ∑ c ∈ range M.nc, ∑ i ∈ range nl, loadC M nl last A (Q k).F N' b c i * Cc c i +
      ∑ c ∈ range M.nc, ∑ l ∈ range (ng M), loadU M nl last off A (Q k).F N' b c l * U c l +
      ∑ c ∈ range M.nc, (∑ l ∈ range (ng M), (Q k).N.fUp c l * Up c l + ∑ i ∈ range nl, (Q k).N.fCp c i * Cp c i) +
      ∑ c ∈ range M.nc, ∑ m ∈ range M.npc, (Q k).fZ c m * Z c m := by
    unfold criterionAlong carried loadC loadU
    rw [hA]
    split_ifs with h
    · simp only [add_mul, sum_add_distrib, hCc, hU, hUp, hCp, hZ]
      ring
    · simp only [add_mul, sum_add_distrib, hCc, hU, hUp, hCp, hZ, zero_mul, sum_const_zero]
      ring
  -- stationary in the local states
  have e1 : ∑ c ∈ range M.nc, ∑ i ∈ range nl, loadC M nl last A (Q k).F N' b c i * Cc c i +
      bil M.nc (ng M) nl (Q k).L.RC lam Cc + bil M.nc nl nl (Q k).L.HC mu Cc = 0 := by
    rw [← bilT, ← bilT, ← sum_add_distrib, ← sum_add_distrib]
    refine sum_eq_zero fun c hc => ?_
    rw [← sum_add_distrib, ← sum_add_distrib]
    refine sum_eq_zero fun i hi => ?_
    have := h1 c i (mem_range.1 hc) (mem_range.1 hi)
    unfold stationC at this
    rw [← add_mul, ← add_mul, this, zero_mul]
  -- stationary in the free global states
  have e2 : ∑ c ∈ range M.nc, ∑ l ∈ range (ng M), loadU M nl last off A (Q k).F N' b c l * U c l +
      bil M.nc (ng M) (ng M) (Q k).L.RU lam U + bil M.nc nl (ng M) (Q k).L.HU mu U = 0 := by
    have : ∑ q ∈ range (M.nn * M.ndof), stationU M nl last off (Q k).L A (Q k).F N' b a.lam a.mu q * du k q = 0 := by
      refine sum_eq_zero fun q hq => ?_
      by_cases hf : q ∈ fixed
      · rw [hT.fixed k hk q hf, mul_zero]
      · rw [h2 q (mem_range.1 hq) hf, zero_mul]
    unfold stationU at this
    rw [scatteredVec_pairing hM.mesh (domOk_none _)] at this
    rw [← bilT, ← bilT, ← sum_add_distrib, ← sum_add_distrib, ← this]
    refine sum_congr rfl fun c _ => ?_
    rw [← sum_add_distrib, ← sum_add_distrib]
    refine sum_congr rfl fun l _ => ?_
    rw [← add_mul, ← add_mul]
    rfl
  -- tangent of the local equation
  have e3 : bil M.nc nl (ng M) (Q k).L.HU mu U + bil M.nc nl nl (Q k).L.HC mu Cc + bil M.nc nl (ng M) (Q k).N.HUp mu Up +
      bil M.nc nl nl (Q k).N.HCp mu Cp + bil M.nc nl M.npc (Q k).HZ mu Z = 0 := by
    simp only [← bilN]
    simp only [← sum_add_distrib]
    refine sum_eq_zero fun c hc => sum_eq_zero fun i hi => ?_
    have := hT.loc k hk c i (mem_range.1 hc) (mem_range.1 hi)
    simp only [← add_mul]
    rw [this, zero_mul]
  -- tangent of the global equation
  have e4 : bil M.nc (ng M) (ng M) (Q k).L.RU lam U + bil M.nc (ng M) nl (Q k).L.RC lam Cc +
      bil M.nc (ng M) (ng M) (Q k).N.RUp lam Up + bil M.nc (ng M) nl (Q k).N.RCp lam Cp +
      bil M.nc (ng M) (M.npc * M.dim) (Q k).RN lam Nn + bil M.nc (ng M) M.npc (Q k).RZ lam Z = 0 := by
    have : ∑ q ∈ range (M.nn * M.ndof), scatteredVec M.npc M.ndof M.c2n none M.nc (fun c l =>
        ∑ s ∈ range (ng M), (Q k).L.RU c l s * du k (dof M c s) + ∑ j ∈ range nl, (Q k).L.RC c l j * dc k (c, j) +
        ∑ s ∈ range (ng M), (Q k).N.RUp c l s * before du k (dof M c s) + ∑ j ∈ range nl, (Q k).N.RCp c l j * before dc k (c, j) +
        ∑ s ∈ range (M.npc * M.dim), (Q k).RN c l s * dn k (pdof M c s) +
        ∑ m ∈ range M.npc, (Q k).RZ c l m * dz (zdof M c m)) q * at0 a.lam q = 0 := by
      refine sum_eq_zero fun q hq => ?_
      by_cases hf : q ∈ fixed
      · rw [h3 q hf, mul_zero]
      · rw [hT.glob k hk q (mem_range.1 hq) hf, zero_mul]
    rw [scatteredVec_pairing hM.mesh (domOk_none _)] at this
    simp only [← bilN]
    simp only [← sum_add_distrib]
    rw [← this]
    refine sum_congr rfl fun c _ => sum_congr rfl fun l _ => ?_
    simp only [← add_mul]
    rfl
  -- projection
  have e5 : bil M.nc (M.npc * M.dim) M.npc (Q k).N.PN gam Pp + bil M.nc (M.npc * M.dim) M.npc (Q k).PZ gam Z =
      bil M.nc (ng M) (M.npc * M.dim) (Q k).RN lam Nn := by
    by_cases h0 : k = 0
    · have z1 : ∀ X : Nat → Nat → Nat → ℝ, ∀ y, bil M.nc (M.npc * M.dim) M.npc X gam y = 0 := fun X y =>
        sum_eq_zero fun c _ => sum_eq_zero fun l _ => sum_eq_zero fun s _ => by
          rw [show gam c l = 0 from h4 h0 _]; ring
      have z2 : bil M.nc (ng M) (M.npc * M.dim) (Q k).RN lam Nn = 0 :=
        sum_eq_zero fun c hc => sum_eq_zero fun l _ => sum_eq_zero fun s hs => by
          have hlt := hM.mesh.dof_lt (d := M.dim) (mem_range.1 hc) (mem_range.1 hs)
          have : Nn c s = 0 := by
            show dn k _ = 0
            rw [h0]
            exact hT.first _ hlt
          rw [this, mul_zero]
      rw [z1, z1, z2, add_zero]
    · have p1 : ∑ q ∈ range (M.nn * M.dim), ((Q k).rs q * dn k q + scatteredVec M.npc M.dim M.c2n none M.nc (fun c l =>
          ∑ m ∈ range M.npc, (Q k).N.PN c l m * before du k (dof M c (m * M.ndof + off)) +
          ∑ m ∈ range M.npc, (Q k).PZ c l m * dz (zdof M c m)) q) * at0 a.gam q = 0 :=
        sum_eq_zero fun q hq => by rw [hT.proj k hk h0 q (mem_range.1 hq), zero_mul]
      have p2 : ∑ q ∈ range (M.nn * M.dim), ((Q k).rs q * at0 a.gam q + scatteredVec M.npc M.dim M.c2n none M.nc (fun c s =>
          ∑ l ∈ range (ng M), (Q k).RN c l s * at0 a.lam (dof M c l)) q) * dn k q = 0 :=
        sum_eq_zero fun q hq => by rw [h5 h0 q (mem_range.1 hq), zero_mul]
      simp only [add_mul, sum_add_distrib] at p1 p2
      rw [scatteredVec_pairing hM.mesh (domOk_none _)] at p1 p2
      have b1 : bil M.nc (M.npc * M.dim) M.npc (Q k).N.PN gam Pp + bil M.nc (M.npc * M.dim) M.npc (Q k).PZ gam Z =
          ∑ c ∈ range M.nc, ∑ l ∈ range (M.npc * M.dim), (∑ m ∈ range M.npc, (Q k).N.PN c l m * before du k (dof M c (m * M.ndof + off)) +
          ∑ m ∈ range M.npc, (Q k).PZ c l m * dz (zdof M c m)) * at0 a.gam (cellDof M.npc M.dim M.c2n (gcell none c) l) := by
        rw [← bilN, ← bilN]
        simp only [← sum_add_distrib, ← add_mul]
        rfl
      have b2 : bil M.nc (ng M) (M.npc * M.dim) (Q k).RN lam Nn = ∑ c ∈ range M.nc, ∑ s ∈ range (M.npc * M.dim),
          (∑ l ∈ range (ng M), (Q k).RN c l s * at0 a.lam (dof M c l)) * dn k (cellDof M.npc M.dim M.c2n (gcell none c) s) := by
        rw [← bilT]
        rfl
      rw [b1, b2]
      have c1 : ∑ q ∈ range (M.nn * M.dim), (Q k).rs q * dn k q * at0 a.gam q =
          ∑ q ∈ range (M.nn * M.dim), (Q k).rs q * at0 a.gam q * dn k q := sum_congr rfl fun q _ => by ring
      linarith
  -- what is carried to the step before
  have e6 : carried M nl off (Q k).N a (before du k) (before dc k) =
      ∑ c ∈ range M.nc, (∑ l ∈ range (ng M), (Q k).N.fUp c l * Up c l + ∑ i ∈ range nl, (Q k).N.fCp c i * Cp c i) +
      bil M.nc (M.npc * M.dim) M.npc (Q k).N.PN gam Pp + bil M.nc (ng M) (ng M) (Q k).N.RUp lam Up +
      bil M.nc nl (ng M) (Q k).N.HUp mu Up + bil M.nc nl nl (Q k).N.HCp mu Cp + bil M.nc (ng M) nl (Q k).N.RCp lam Cp := by
    have f1 : bil M.nc (M.npc * M.dim) M.npc (Q k).N.PN gam Pp = ∑ c ∈ range M.nc, ∑ l ∈ range (ng M),
        (if l % M.ndof = off then ∑ q ∈ range (M.npc * M.dim), (Q k).N.PN c q (l / M.ndof) * gam c q else 0) * Up c l := by
      rw [← bilT]
      refine sum_congr rfl fun c _ => ?_
      rw [sum_offset hoff (fun m => ∑ q ∈ range (M.npc * M.dim), (Q k).N.PN c q m * gam c q)]
    rw [f1, ← bilT, ← bilT, ← bilT, ← bilT]
    simp only [← sum_add_distrib]
    unfold carried
    refine sum_congr rfl fun c _ => ?_
    unfold nextU nextC
    simp only [add_mul, sum_add_distrib]
    ring
  -- the part of the gradient
  have e7 : ∑ q ∈ range (M.nn * 1), (scatteredVec M.npc 1 M.c2n none M.nc (fun c m =>
        ∑ l ∈ range (ng M), (Q k).RZ c l m * at0 a.lam (dof M c l) +
        ∑ l ∈ range (M.npc * M.dim), (Q k).PZ c l m * at0 a.gam (pdof M c l) +
        ∑ j ∈ range nl, (Q k).HZ c j m * at0 a.mu (c * nl + j)) q +
        scatteredVec M.npc 1 M.c2n none M.nc (Q k).fZ q) * dz q =
      bil M.nc (ng M) M.npc (Q k).RZ lam Z + bil M.nc (M.npc * M.dim) M.npc (Q k).PZ gam Z + bil M.nc nl M.npc (Q k).HZ mu Z +
      ∑ c ∈ range M.nc, ∑ m ∈ range M.npc, (Q k).fZ c m * Z c m := by
    simp only [add_mul, sum_add_distrib]
    rw [scatteredVec_pairing hM.mesh (domOk_none _), scatteredVec_pairing hM.mesh (domOk_none _), Nat.mul_one, ← bilT, ← bilT, ← bilT]
    simp only [add_mul, sum_add_distrib]
    rfl
  rw [e0, e6, e7]
  linarith

end

end Plato.Cond
