import Verif.Cond.Newton
import Verif.Plast.ProjectionProps

/-!
# C84: one step of the adjoint
-/

namespace Plato.Cond
open Finset Plato Plato.Mech Plato.J2 Plato.Plast

/-- What the criterion returns for the states of a step. -/
structure CriLin where
  fU : Nat → Nat → ℝ
  fC : Nat → Nat → ℝ

/-- What the equations and the criterion return for the states of the next step, differentiated by the states of the
step before it. -/
structure NextLin where
  fUp : Nat → Nat → ℝ
  fCp : Nat → Nat → ℝ
  RUp : Nat → Nat → Nat → ℝ
  RCp : Nat → Nat → Nat → ℝ
  HUp : Nat → Nat → Nat → ℝ
  HCp : Nat → Nat → Nat → ℝ
  PN : Nat → Nat → Nat → ℝ

structure CriOk (M : FeModel) (nl : Nat) (C : Cri) (A : FState) (F : CriLin) : Prop where
  fU : (C.fU A.g.loc A.step).Sat (Is2 M.nc (ng M) F.fU)
  fC : (C.fC A.g.loc A.step).Sat (Is2 M.nc nl F.fC)

/-- `A` holds the states of this step, `B` those of the next one. -/
structure NextOk (M : FeModel) (nl : Nat) (E : Eqs) (C : Cri) (P : ProjEq) (A B : FState) (N : NextLin) : Prop where
  fUp : (C.fUp B.g.loc B.step).Sat (Is2 M.nc (ng M) N.fUp)
  fCp : (C.fCp B.g.loc B.step).Sat (Is2 M.nc nl N.fCp)
  rUp : (E.rUp B.g B.step).Sat (Is3 M.nc (ng M) (ng M) N.RUp)
  rCp : (E.rCp B.g B.step).Sat (Is3 M.nc (ng M) nl N.RCp)
  hUp : (E.hUp B.g.loc B.step).Sat (Is3 M.nc nl (ng M) N.HUp)
  hCp : (E.hCp B.g.loc B.step).Sat (Is3 M.nc nl nl N.HCp)
  pN : (P.pN B.g.n A.press A.g.loc.z B.step).Sat (Is3 M.nc (M.npc * M.dim) M.npc N.PN)

/-- Vectors of adjoints of the right lengths. -/
structure Adj.Ok (M : FeModel) (nl : Nat) (a : Adj) : Prop where
  lam : a.lam.length = M.nn * M.ndof
  mu : a.mu.length = M.nc * nl
  gam : a.gam.length = M.nn * M.dim

/-- Number of the component `l` of the projected pressure gradient of cell `c`. -/
abbrev pdof (M : FeModel) (c l : Nat) : Nat := cellDof M.npc M.dim M.c2n c l

/-- What the step after this one adds to the equation of the local adjoint. -/
noncomputable def nextC (M : FeModel) (nl : Nat) (N : NextLin) (a : Adj) (c i : Nat) : ℝ :=
  N.fCp c i + ∑ q ∈ range nl, N.HCp c q i * at0 a.mu (c * nl + q) +
    ∑ q ∈ range (ng M), N.RCp c q i * at0 a.lam (dof M c q)

/-- What the step after this one adds to the equation of the global adjoint. -/
noncomputable def nextU (M : FeModel) (nl off : Nat) (N : NextLin) (a : Adj) (c l : Nat) : ℝ :=
  N.fUp c l + (if l % M.ndof = off then ∑ q ∈ range (M.npc * M.dim), N.PN c q (l / M.ndof) * at0 a.gam (pdof M c q) else 0) +
    ∑ q ∈ range (ng M), N.RUp c q l * at0 a.lam (dof M c q) + ∑ q ∈ range nl, N.HUp c q l * at0 a.mu (c * nl + q)

section
variable {M : FeModel} (hM : M.Ok) (hnc : 0 < M.nc) {nl : Nat} (hnl : 0 < nl) {S : Sched} (hS : S.Ok M)
include hM hnc hnl hS

omit hnc hnl in
theorem lamWs_ok (i : Nat) {lam : List ℝ} (hl : lam.length = M.nn * M.ndof) :
    (lamWs M S i lam).Sat (Is2 M.nc (ng M) fun c l => at0 lam (dof M c l)) := by
  refine (workset_ok hM.mesh (domOk_none _) hl rfl rfl (hS.cell i)).mono ?_
  rintro w ⟨w0, w1, w2⟩
  exact ⟨w0, w1, fun c l hc hl => w2 c l hc hl⟩

omit hnc hnl in
theorem gamWs_ok (i : Nat) {gam : List ℝ} (hl : gam.length = M.nn * M.dim) :
    (gamWs M S i gam).Sat (Is2 M.nc (M.npc * M.dim) fun c l => at0 gam (pdof M c l)) := by
  refine (workset_ok hM.mesh (domOk_none _) hl rfl rfl (hS.cell i)).mono ?_
  rintro w ⟨w0, w1, w2⟩
  exact ⟨w0, w1, fun c l hc hl => w2 c l hc hl⟩

omit hM hnc hnl in
theorem muWs_ok (i : Nat) {mu : List ℝ} (hl : mu.length = M.nc * nl) :
    (muWs M nl S i mu).Sat (Is2 M.nc nl fun c l => at0 mu (c * nl + l)) := by
  refine (worksetLocal_ok (domOk_none _) hl rfl rfl (hS.cell i)).mono ?_
  rintro w ⟨w0, w1, w2⟩
  exact ⟨w0, w1, fun c l hc hl => w2 c l hc hl⟩

variable {E : Eqs} {C : Cri} {P : ProjEq} {A B : FState} {N : NextLin} (hN : NextOk M nl E C P A B N)
  {a : Adj} (ha : a.Ok M nl)
include hN ha

theorem nextLocalTerms_ok {f : Nat → Nat → ℝ} {w : V2 ℝ} (hw : Is2 M.nc nl f w) :
    (nextLocalTerms M nl E S C B a w).Sat (Is2 M.nc nl fun c i => f c i + nextC M nl N a c i) := by
  have hg := ng_pos hM
  unfold nextLocalTerms
  refine Res.Sat.bind hN.fCp fun fCp h1 => ?_
  refine Res.Sat.bind (update2_ok (hS.cell 7) hnc hnl h1 hw) fun f1 h2 => ?_
  refine Res.Sat.bind (muWs_ok hS 8 ha.mu) fun mu h3 => ?_
  refine Res.Sat.bind hN.hCp fun hCp h4 => ?_
  refine Res.Sat.bind (mtvT_ok (hS.cell 9) hnc hnl hnl h4 h3 h2) fun f2 h5 => ?_
  refine Res.Sat.bind (lamWs_ok hM hS 10 ha.lam) fun lam h6 => ?_
  refine Res.Sat.bind hN.rCp fun rCp h7 => ?_
  refine (mtvT_ok (hS.cell 11) hnc hg hnl h7 h6 h5).mono fun f3 h8 => h8.congr fun c i _ _ => ?_
  unfold nextC
  ring

omit hnl in
theorem projRhs_ok : (projRhs M S P A B a).Sat
    (Is2 M.nc M.npc fun c n => ∑ q ∈ range (M.npc * M.dim), N.PN c q n * at0 a.gam (pdof M c q)) := by
  have hn : 0 < M.npc := by unfold FeModel.npc; omega
  have hp : 0 < M.npc * M.dim := Nat.mul_pos hn hM.dim
  unfold projRhs
  refine Res.Sat.bind hN.pN fun pN h1 => ?_
  refine Res.Sat.bind (gamWs_ok hM hS 14 ha.gam) fun gam h2 => ?_
  refine (mtvT_ok (hS.cell 15) hnc hp hn h1 h2 (Is2.zero _ _)).mono fun v h3 => h3.congr fun c i _ _ => ?_
  ring

omit hnl hN ha in
/-- Adding a number by node to the pressures of the cells. -/
theorem axpyP_ok {off : Nat} (hoff : off < M.ndof) {x y : Nat → Nat → ℝ} {X Y : V2 ℝ} (hX : Is2 M.nc M.npc x X)
    (hY : Is2 M.nc (ng M) y Y) :
    (blas2.axpy (S.cell 17) M.ndof off 1 X Y).Sat (Is2 M.nc (ng M) fun c l =>
      y c l + if l % M.ndof = off then x c (l / M.ndof) else 0) := by
  have hn : 0 < M.npc := by unfold FeModel.npc; omega
  have hd := hM.ndof
  refine (blas2.C41_axpy2 (hX.1 ▸ hS.cell 17) (by unfold V2.size; rw [hX.1, hX.2.1]; exact Nat.mul_pos hnc hn) (hY.1.trans hX.1.symm) hd ?_).mono ?_
  · rw [hX.2.1, hY.2.1]
    calc M.ndof * (M.npc - 1) + off < M.ndof * (M.npc - 1) + M.ndof := by omega
      _ = M.ndof * (M.npc - 1 + 1) := by ring
      _ = ng M := by rw [Nat.sub_add_cancel hn, Nat.mul_comm]
  · rintro z ⟨z0, z1, z2, z3⟩
    refine ⟨z0.trans hY.1, z1.trans hY.2.1, fun c l hc hl => ?_⟩
    dsimp only
    have hl' : l / M.ndof < M.npc := Nat.div_lt_of_lt_mul (by rw [Nat.mul_comm]; exact hl)
    split_ifs with h
    · have e : l = M.ndof * (l / M.ndof) + off := by
        have := Nat.div_add_mod l M.ndof
        omega
      have := z2 c (l / M.ndof) (hX.1 ▸ hc) (hX.2.1 ▸ hl')
      rw [← e] at this
      rw [this, hX.2.2 c _ hc hl', hY.2.2 c l hc hl]; ring
    · rw [z3 c l (hX.1 ▸ hc) ?_, hY.2.2 c l hc hl, add_zero]
      intro j _ hj
      apply h
      rw [hj, Nat.mul_add_mod, Nat.mod_eq_of_lt hoff]

theorem nextGlobalTerms_ok {off : Nat} (hoff : off < M.ndof) {f : Nat → Nat → ℝ} {w : V2 ℝ} (hw : Is2 M.nc (ng M) f w) :
    (nextGlobalTerms M nl E S C P off A B a w).Sat (Is2 M.nc (ng M) fun c l => f c l + nextU M nl off N a c l) := by
  have hg := ng_pos hM
  unfold nextGlobalTerms
  refine Res.Sat.bind hN.fUp fun fUp h1 => ?_
  refine Res.Sat.bind (update2_ok (hS.cell 16) hnc hg h1 hw) fun f1 h2 => ?_
  refine Res.Sat.bind (projRhs_ok hM hnc hS hN ha) fun p h3 => ?_
  refine Res.Sat.bind (axpyP_ok hM hnc hS hoff h3 h2) fun f2 h4 => ?_
  refine Res.Sat.bind (lamWs_ok hM hS 18 ha.lam) fun lam h5 => ?_
  refine Res.Sat.bind hN.rUp fun rUp h6 => ?_
  refine Res.Sat.bind (mtvT_ok (hS.cell 19) hnc hg hg h6 h5 h4) fun f3 h7 => ?_
  refine Res.Sat.bind (muWs_ok hS 20 ha.mu) fun mu h8 => ?_
  refine Res.Sat.bind hN.hUp fun hUp h9 => ?_
  refine (mtvT_ok (hS.cell 21) hnc hnl hg h9 h8 h7).mono fun f4 h10 => h10.congr fun c l _ _ => ?_
  unfold nextU
  ring

end

/-- Derivative of the criterion by the local states of this step, with what the next step adds. -/
noncomputable def loadC (M : FeModel) (nl last : Nat) (A : FState) (F : CriLin) (N : NextLin) (a : Adj) (c i : Nat) : ℝ :=
  F.fC c i + if A.step ≠ last then nextC M nl N a c i else 0

/-- Derivative of the criterion by the global states of this step, with what the next step adds. -/
noncomputable def loadU (M : FeModel) (nl last off : Nat) (A : FState) (F : CriLin) (N : NextLin) (a : Adj) (c l : Nat) : ℝ :=
  F.fU c l + if A.step ≠ last then nextU M nl off N a c l else 0

/-- The **specification** of a step: derivative of the sum of criterion and equations times adjoints by the local states
of a cell, and by the global state `q`. -/
noncomputable def stationC (M : FeModel) (nl last : Nat) (L : Lin) (A : FState) (F : CriLin) (N : NextLin) (a : Adj)
    (lam mu : List ℝ) (c i : Nat) : ℝ :=
  loadC M nl last A F N a c i + ∑ l ∈ range (ng M), L.RC c l i * at0 lam (dof M c l) +
    ∑ j ∈ range nl, L.HC c j i * at0 mu (c * nl + j)

noncomputable def stationU (M : FeModel) (nl last off : Nat) (L : Lin) (A : FState) (F : CriLin) (N : NextLin) (a : Adj)
    (lam mu : List ℝ) (q : Nat) : ℝ :=
  scatteredVec M.npc M.ndof M.c2n none M.nc (fun c l => loadU M nl last off A F N a c l +
    ∑ s ∈ range (ng M), L.RU c s l * at0 lam (dof M c s) + ∑ j ∈ range nl, L.HU c j l * at0 mu (c * nl + j)) q

theorem Res.Sat.ite_bind {α β : Type} {p : Prop} [Decidable p] {x y : Res α} {k : α → Res β} {P : α → Prop} {Q : β → Prop}
    (h : (if p then x else y).Sat P) (hk : ∀ a, P a → (k a).Sat Q) : (if p then x >>= k else y >>= k).Sat Q := by
  split_ifs at h ⊢ <;> exact Res.Sat.bind h hk

/-- `flatten_vector_workset` over all cells. -/
theorem flatten_none_ok {nl nc : Nat} (hnl : 0 < nl) (hnc : 0 < nc) {o : List Nat} (hs : IsSchedule o nc) {f : Nat → Nat → ℝ}
    {w : V2 ℝ} (hw : Is2 nc nl f w) {out : List ℝ} (ho : out.length = nc * nl) :
    (flatten nl none nc w o out).Sat fun v => v.length = nc * nl ∧
      ∀ c i, c < nc → i < nl → at0 v (c * nl + i) = f c i := by
  have hp : 0 < nc * nl := Nat.mul_pos hnc hnl
  unfold flatten
  rw [if_neg (by unfold V2.size; rw [hw.1, hw.2.1]; omega), if_neg (by omega), if_neg (by omega)]
  refine (parFor_sched hs (fun D v => v.length = nc * nl ∧ ∀ c ∈ D, c < nc → ∀ i, i < nl → at0 v (c * nl + i) = f c i)
    ⟨ho, by simp⟩ ?_).mono ?_
  · rintro D c v hc hD - ⟨h1, h2⟩
    show ((do
      let gc ← cellOf none c
      forRange 0 nl v fun i out => do
        let a ← vrd2 w c i
        wr out (gc * nl + i) a) : Res (List ℝ)).Sat _
    rw [cellOf_eq (domOk_none nc) hc, Res.ok_bind]
    refine (flatten_step (gc := c) hc (hw.1 ▸ hc) hw.2.1 h1).mono ?_
    rintro v' ⟨k1, k2, k3⟩
    refine ⟨k1, fun c' hc' hlt i hi => ?_⟩
    by_cases e : c' = c
    · subst e
      rw [k2 i hi, hw.2.2 c' i hc hi]
    · rw [k3 c' hlt e i hi]
      exact h2 c' (by simpa [e] using hc') hlt i hi
  · rintro v ⟨h1, h2⟩
    exact ⟨h1, fun c i hc hi => h2 c (mem_range.2 hc) hc i hi⟩

section
variable {M : FeModel} (hM : M.Ok) (hnc : 0 < M.nc) {nl : Nat} (hnl : 0 < nl) {E : Eqs} {S : Sched} (hS : S.Ok M)
  {A B : FState} {L : Lin} (hJ : Jacs M nl E A.g A.step L) {C : Cri} {P : ProjEq} {F : CriLin} (hF : CriOk M nl C A F)
  {N : NextLin} {last off : Nat} (hN : A.step ≠ last → NextOk M nl E C P A B N) {a : Adj} (ha : a.Ok M nl)
  {w : V3 ℝ} {I : Nat → Nat → Nat → ℝ} (hI : Is3 M.nc nl nl I w)
include hM hnc hnl hS hJ hF hN ha hI

theorem localRhs_ok : (localRhs M nl E S C last A B a w).Sat (Is2 M.nc (ng M) fun c l =>
    ∑ p ∈ range nl, L.HU c p l * ∑ q ∈ range nl, I c q p * loadC M nl last A F N a c q) := by
  have hg := ng_pos hM
  unfold localRhs
  refine Res.Sat.bind hF.fC fun f h1 => ?_
  dsimp only
  refine Res.Sat.ite_bind (P := Is2 M.nc nl (loadC M nl last A F N a)) ?_ fun f' h2 => ?_
  · unfold loadC
    split_ifs with h
    · exact nextLocalTerms_ok hM hnc hnl hS (hN h) ha h1
    · exact Res.Sat.ok (h1.congr fun c i _ _ => (add_zero _).symm)
  refine Res.Sat.bind (mtvT_ok (hS.cell 12) hnc hnl hnl hI h2 (Is2.zero _ _)) fun v h3 => ?_
  refine Res.Sat.bind hJ.hU fun hU h4 => ?_
  refine (mtvT_ok (hS.cell 13) hnc hnl hg h4 h3 (Is2.zero _ _)).mono fun v h5 => h5.congr fun c i _ _ => ?_
  rw [mul_zero, zero_add, one_mul]
  exact sum_congr rfl fun p _ => by rw [zero_add, one_mul]

theorem globalRhs_ok (hoff : off < M.ndof) : (globalRhs M nl E S C P last off A B a w).Sat fun v =>
    v.length = M.nn * M.ndof ∧ ∀ q, q < M.nn * M.ndof → at0 v q = - scatteredVec M.npc M.ndof M.c2n none M.nc (fun c l =>
      loadU M nl last off A F N a c l -
        ∑ p ∈ range nl, L.HU c p l * ∑ q ∈ range nl, I c q p * loadC M nl last A F N a c q) q := by
  have hg := ng_pos hM
  have hpos : 0 < M.nn * M.ndof := by
    have h1 := hM.mesh.node_lt (cell := 0) (a := 0) hnc (by unfold FeModel.npc; omega)
    have h2 := hM.ndof
    have h3 : 0 < M.nn := by omega
    positivity
  unfold globalRhs
  refine Res.Sat.bind hF.fU fun f h1 => ?_
  dsimp only
  refine Res.Sat.ite_bind (P := Is2 M.nc (ng M) (loadU M nl last off A F N a)) ?_ fun f' h2 => ?_
  · unfold loadU
    split_ifs with h
    · exact nextGlobalTerms_ok hM hnc hnl hS (hN h) ha hoff h1
    · exact Res.Sat.ok (h1.congr fun c i _ _ => (add_zero _).symm)
  refine Res.Sat.bind (localRhs_ok hM hnc hnl hS hJ hF hN ha hI) fun l h3 => ?_
  refine Res.Sat.bind (update2_ok (hS.cell 22) hnc hg h3 h2) ?_
  rintro g ⟨g0, g1, g2⟩
  have e := blas1.C41_fill (order := S.dofs 2) (fin := fun _ => true) (a := (0 : ℝ))
    (x := List.replicate (M.nn * M.ndof) (0 : ℝ)) (by simpa using hS.dofs 2 (by omega)) (by simpa using hpos) rfl
  rw [e, Res.ok_bind, List.length_replicate]
  refine Res.Sat.bind (C08_assembleResidual (v := List.replicate (M.nn * M.ndof) (0 : ℝ)) (ws := V2.view g) hM.mesh
    (domOk_none _) (by rw [List.length_replicate]) g0.ge g1.ge (hS.vec 1)) ?_
  rintro v ⟨v0, v1⟩
  refine (blas1.C41_scale (v0 ▸ hS.dofs 3 (by omega)) (by omega) rfl).mono ?_
  rintro y ⟨y0, y1⟩
  refine ⟨y0.trans v0, fun q hq => ?_⟩
  rw [y1 q (v0 ▸ hq), v1 q, Crit.at0_replicate, zero_add, neg_one_mul]
  congr 1
  refine scatteredVec_congr (fun c l hc hl => ?_) q
  rw [show (V2.view g).data c l = _ from g2 c l hc hl]
  ring

theorem localAdjoint_ok {lam old : List ℝ} (hl : lam.length = M.nn * M.ndof) (ho : old.length = M.nc * nl) :
    (localAdjoint M nl E S C last A B a w lam old).Sat fun mu => mu.length = M.nc * nl ∧
      ∀ c i, c < M.nc → i < nl → at0 mu (c * nl + i) = - ∑ q ∈ range nl, I c q i *
        (loadC M nl last A F N a c q + ∑ l ∈ range (ng M), L.RC c l q * at0 lam (dof M c l)) := by
  have hg := ng_pos hM
  unfold localAdjoint
  refine Res.Sat.bind hF.fC fun f h1 => ?_
  refine Res.Sat.bind (lamWs_ok hM hS 23 hl) fun l h2 => ?_
  refine Res.Sat.bind hJ.rC fun rC h3 => ?_
  refine Res.Sat.bind (mtvT_ok (hS.cell 24) hnc hg hnl h3 h2 h1) fun f1 h4 => ?_
  dsimp only
  refine Res.Sat.ite_bind (P := Is2 M.nc nl fun c q => loadC M nl last A F N a c q +
    ∑ l ∈ range (ng M), L.RC c l q * at0 lam (dof M c l)) ?_ fun f' h5 => ?_
  · unfold loadC
    split_ifs with h
    · refine (nextLocalTerms_ok hM hnc hnl hS (hN h) ha h4).mono fun _ k => k.congr fun c i _ _ => ?_
      ring
    · exact Res.Sat.ok (h4.congr fun c i _ _ => by ring)
  refine Res.Sat.bind (mtvT_ok (hS.cell 25) hnc hnl hnl hI h5 (Is2.zero _ _)) fun mu h6 => ?_
  refine (flatten_none_ok hnl hnc (hS.cell 26) h6 ho).mono ?_
  rintro v ⟨v0, v1⟩
  refine ⟨v0, fun c i hc hi => ?_⟩
  rw [v1 c i hc hi]
  ring

end

section
variable {M : FeModel} (hM : M.Ok) (hnc : 0 < M.nc) {nl : Nat} (hnl : 0 < nl) {E : Eqs} {S : Sched} (hS : S.Ok M)
  {A B : FState} {L : Lin} (hJ : Jacs M nl E A.g A.step L) {C : Cri} {P : ProjEq} {F : CriLin} (hF : CriOk M nl C A F)
  {N : NextLin} {last off : Nat} (hN : A.step ≠ last → NextOk M nl E C P A B N) {a : Adj} (ha : a.Ok M nl)
include hM hnc hnl hS hJ hF hN ha

/-- **C84, states**: the system that the adjoint solver assembles for the global adjoint and the update of the local
adjoint are such that, for every vector of global adjoints, the sum of the criterion and the equations weighted with
the adjoints is stationary in the local states, and its derivative by a global state is the residual of that row of
the assembled system. -/
theorem C84_adjoint_step (hoff : off < M.ndof) {out : V3 ℝ} (ho : out.d0 = M.nc ∧ out.d1 = nl ∧ out.d2 = nl)
    (hL : ∀ c, c < M.nc → ∀ m, m ≤ nl → blas3.Leading (L.HC c) m) :
    (adjointSystem M nl E S C P last off A B a out).Sat fun s => s.2.1.WF M.nn M.nn ∧ s.2.1.rpb = M.ndof ∧
      s.2.1.cpb = M.ndof ∧ s.2.2.length = M.nn * M.ndof ∧
      (∀ I, I < M.nn → (s.2.1.rowCols I).Perm (I :: nbrs M.orm M.oab I)) ∧
      (s.1.d0 = M.nc ∧ s.1.d1 = nl ∧ s.1.d2 = nl) ∧
      ∀ lam old : List ℝ, lam.length = M.nn * M.ndof → old.length = M.nc * nl →
        (localAdjoint M nl E S C last A B a s.1 lam old).Sat fun mu => mu.length = M.nc * nl ∧
          (∀ c i, c < M.nc → i < nl → stationC M nl last L A F N a lam mu c i = 0) ∧
          ∀ q, q < M.nn * M.ndof → stationU M nl last off L A F N a lam mu q =
            ∑ j ∈ range (M.nn * M.ndof), s.2.1.dense q j * at0 lam j - at0 s.2.2 q := by
  unfold adjointSystem
  refine Res.Sat.bind (inverseC_ok hM hnc hnl hS hJ ho hL) ?_
  rintro w ⟨I, hI, hinv⟩
  refine Res.Sat.bind (tangentMatrixT_ok hM hnc hnl hS hJ hI) ?_
  rintro K ⟨K0, K1, K2, Kr, K3⟩
  refine Res.Sat.bind (globalRhs_ok hM hnc hnl hS hJ hF hN ha hI hoff) ?_
  rintro f ⟨f0, f1⟩
  refine Res.Sat.ok ⟨K0, K1, K2, f0, Kr, ⟨hI.1, hI.2.1, hI.2.2.1⟩, fun lam old hl hold => ?_⟩
  refine (localAdjoint_ok hM hnc hnl hS hJ hF hN ha hI hl hold).mono ?_
  rintro mu ⟨m0, m1⟩
  refine ⟨m0, fun c i hc hi => ?_, fun q hq => ?_⟩
  · unfold stationC
    have e : ∑ j ∈ range nl, L.HC c j i * at0 mu (c * nl + j) =
        - (loadC M nl last A F N a c i + ∑ l ∈ range (ng M), L.RC c l i * at0 lam (dof M c l)) := by
      rw [sum_congr rfl fun j hj => by rw [m1 c j hc (mem_range.1 hj)]]
      have e1 : ∀ X : Nat → ℝ, ∑ j ∈ range nl, L.HC c j i * - ∑ q ∈ range nl, I c q j * X q = - X i := by
        intro X
        simp only [mul_neg, mul_sum, sum_neg_distrib]
        rw [sum_comm]
        have e2 : ∀ y ∈ range nl, ∑ x ∈ range nl, L.HC c x i * (I c y x * X y) = (if y = i then 1 else 0) * X y := by
          intro y hy
          rw [← (hinv c hc y i (mem_range.1 hy) hi).2, sum_mul]
          exact sum_congr rfl fun x _ => by ring
        rw [sum_congr rfl e2, sum_eq_single_of_mem i (mem_range.2 hi) (fun j _ hj => by rw [if_neg hj, zero_mul]),
          if_pos rfl, one_mul]
      exact e1 fun q => loadC M nl last A F N a c q + ∑ l ∈ range (ng M), L.RC c l q * at0 lam (dof M c l)
    rw [e]; ring
  · dsimp only
    rw [sum_congr rfl fun j _ => by rw [K3 q j hq], scattered_timesT hM.mesh hM.ndof, f1 q hq, sub_neg_eq_add,
      ← Bnd.scatteredVec_add]
    unfold stationU
    refine scatteredVec_congr (fun c l hc hl => ?_) q
    have e : ∑ j ∈ range nl, L.HU c j l * at0 mu (c * nl + j) =
        - (∑ p ∈ range nl, L.HU c p l * ∑ q ∈ range nl, I c q p * loadC M nl last A F N a c q) -
        ∑ p ∈ range nl, L.HU c p l * ∑ q ∈ range nl, I c q p * ∑ s ∈ range (ng M), L.RC c s q * at0 lam (dof M c s) := by
      rw [← sum_neg_distrib, ← sum_sub_distrib]
      refine sum_congr rfl fun p hp => ?_
      rw [m1 c p hc (mem_range.1 hp)]
      simp only [mul_add, sum_add_distrib]
      ring
    have e2 : ∑ s ∈ range (ng M), cond M nl L I c s l * at0 lam (dof M c s) =
        ∑ s ∈ range (ng M), L.RU c s l * at0 lam (dof M c s) -
        ∑ p ∈ range nl, L.HU c p l * ∑ q ∈ range nl, I c q p * ∑ s ∈ range (ng M), L.RC c s q * at0 lam (dof M c s) := by
      simp only [cond, sub_mul, sum_sub_distrib]
      congr 1
      simp only [sum_mul, mul_sum]
      rw [sum_comm]
      rw [sum_congr rfl fun p _ => sum_comm, sum_comm]
      refine sum_congr rfl fun y _ => sum_congr rfl fun p _ => sum_congr rfl fun s _ => by ring
    show _ = ∑ s ∈ range (ng M), cond M nl L I c s l * at0 lam (dof M c s) + _
    rw [e, e2]; ring

end
end Plato.Cond
