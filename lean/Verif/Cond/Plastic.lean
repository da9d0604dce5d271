import Verif.Cond.Newton
import Verif.Plast.Gradient
import Verif.J2.Inverse
import Verif.J2.Active

/-!
# C86: the Newton system of J2 plasticity
-/

namespace Plato.Cond
open Finset Plato Plato.Mech Plato.J2 Plato.Plast

/-- Orders of the loops of the equations of plasticity: evaluation and worksets of the global residual, of its
derivatives, the same of the local residual, creation of the matrix of `gradient_n_T_assembled`. -/
structure PSched where
  eR : Nat → Nat → List Nat
  sch : Nat → Nat → List Nat
  eF : Nat → Nat → List Nat
  schF : Nat → Nat → List Nat
  ord : Nat → List Nat
  schL : Nat → Nat → List Nat
  ordF : Nat → List Nat
  schLF : Nat → Nat → List Nat
  create : List Nat

structure PSched.Ok (M : FeModel) (Q : PSched) : Prop where
  eR : EvSched M Q.eR
  sch : WsSched M Q.sch
  add : AddSched M (M.npc * M.ndof) Q.sch
  eF : EvSched M Q.eF
  schF : GSched M Q.schF
  ord : OrdOk M Q.ord
  schL : LSched M Q.schL
  ordF : OrdOk M Q.ordF
  schLF : LSched M Q.schLF

/-- The equations of plasticity: `GlobalVectorFunctionInc` (/repo/src/GlobalVectorFunctionInc.hpp) with the residual of
plasticity or thermoplasticity, and `LocalVectorFunctionInc` (/repo/src/LocalVectorFunctionInc.hpp) with J2 plasticity,
as they are passed to the solvers (/repo/src/PlasticityProblem.hpp:146-150).  `B` holds the loads of each step. -/
noncomputable def plastEqs (M : FeModel) (P : Nat → Plast ℝ) (pow23 : ℝ → ℝ) (powF : Fad → Fad) (B : Nat → Loads)
    (init : Nat → Nat → Nat → Nat) (pE pP pF : Nat → Fad → Fad) (Q : PSched) : Eqs where
  r g t := plastResidual M P pow23 (B t) init Q.eR Q.sch g
  rU g _ := globalGradient M (localDofs M.dim) (M.npc * M.ndof) (seeds 0) (plastF powF M P pE pP pF init Q.eF) Q.schF g
  rUp g _ := globalGradient M (localDofs M.dim) (M.npc * M.ndof) (seeds 1) (plastF powF M P pE pP pF init Q.eF) Q.schF g
  rC g _ := globalGradient M (localDofs M.dim) (localDofs M.dim) (seeds 2) (plastF powF M P pE pP pF init Q.eF) Q.schF g
  rCp g _ := globalGradient M (localDofs M.dim) (localDofs M.dim) (seeds 3) (plastF powF M P pE pP pF init Q.eF) Q.schF g
  rZ g _ := globalGradient M (localDofs M.dim) M.npc (seeds 4) (plastF powF M P pE pP pF init Q.eF) Q.schF g
  rX g _ := globalGradient M (localDofs M.dim) (M.npc * M.dim) (seeds 5) (plastF powF M P pE pP pF init Q.eF) Q.schF g
  rNT g _ := globalGradientN M (localDofs M.dim) (plastF powF M P pE pP pF init Q.eF) Q.create Q.schF g
  h a _ := j2Residual M (fun k => (P k).mat) Q.ord Q.schL a
  hU a _ := localGradient M (localDofs M.dim) (M.npc * M.ndof) ⟨seedOf, constOf, constOf, constOf, constOf, constOf⟩
    (residualF M (fun k => (P k).mat) pE pP Q.ordF) Q.schLF a
  hUp a _ := localGradient M (localDofs M.dim) (M.npc * M.ndof) ⟨constOf, seedOf, constOf, constOf, constOf, constOf⟩
    (residualF M (fun k => (P k).mat) pE pP Q.ordF) Q.schLF a
  hC a _ := localGradient M (localDofs M.dim) (localDofs M.dim) ⟨constOf, constOf, seedOf, constOf, constOf, constOf⟩
    (residualF M (fun k => (P k).mat) pE pP Q.ordF) Q.schLF a
  hCp a _ := localGradient M (localDofs M.dim) (localDofs M.dim) ⟨constOf, constOf, constOf, seedOf, constOf, constOf⟩
    (residualF M (fun k => (P k).mat) pE pP Q.ordF) Q.schLF a
  hZ a _ := localGradientZ M (localDofs M.dim) (residualF M (fun k => (P k).mat) pE pP Q.ordF) Q.schLF a
  hX a _ := localGradientX M (localDofs M.dim) (residualF M (fun k => (P k).mat) pE pP Q.ordF) Q.schLF a

theorem coord_lt {m j : Nat} (h : j < m) (v : Fin m → ℝ) : coord m j v = v ⟨j, h⟩ := by
  unfold coord
  rw [dif_pos h]
  rfl

/-- One row of a gradient. -/
theorem IsGradient.row {M : FeModel} {m : Nat} {res : (Fin m → ℝ) → Nat → ℝ} {cols : Nat} {at' : Nat → Nat → Nat} {J : V3 ℝ}
    {x : Fin m → ℝ} (h : IsGradient M res cols at' J x) {q : Nat} (hq : q < M.nn * M.ndof) :
    DifferentiableAt ℝ (fun y => res y q) x ∧ ∀ v, fderiv ℝ (fun y => res y q) x v =
      scatteredVec M.npc M.ndof M.c2n none M.nc (fun c l => ∑ s ∈ range cols, J.e c l s * coord m (at' c s) v) q := by
  have h1 := h fun i => if i = q then 1 else 0
  have e : (fun y => ∑ i ∈ range (M.nn * M.ndof), res y i * (if i = q then 1 else 0)) = fun y => res y q := by
    funext y
    rw [sum_eq_single q (fun b _ hb => by simp [hb]) (fun hb => absurd (mem_range.2 hq) hb)]
    simp
  rw [e] at h1
  refine ⟨h1.differentiableAt, fun v => ?_⟩
  rw [h1.fderiv]
  simp only [ContinuousLinearMap.sum_apply, ContinuousLinearMap.smul_apply, smul_eq_mul]
  unfold scatteredVec gcell
  refine sum_congr rfl fun c _ => sum_congr rfl fun l _ => ?_
  dsimp only
  split_ifs with hc
  · rw [one_mul]
  · rw [zero_mul]

/-- The **specification**: with `Ru` the global residual by the global state, `Rc` by the local state, `Hu` and `Hc` the
same of the local residual, `du` and `dc` make both residuals vanish to first order.  The derivative of the local
residual by the local state is that among the states `T`. -/
structure NewtonStep {nu nc nn nl : Nat} (T : Set (Fin nc → ℝ)) (Ru : (Fin nu → ℝ) → Nat → ℝ) (Rc : (Fin nc → ℝ) → Nat → ℝ)
    (Hu : (Fin nu → ℝ) → Nat → Nat → ℝ) (Hc : (Fin nc → ℝ) → Nat → Nat → ℝ) (u du : Fin nu → ℝ) (c dc : Fin nc → ℝ) : Prop where
  glob : ∀ q, q < nu → Ru u q + fderiv ℝ (fun y => Ru y q) u du + fderiv ℝ (fun y => Rc y q) c dc = 0
  loc : ∀ cell i, cell < nn → i < nl →
    Hu u cell i + fderiv ℝ (fun y => Hu y cell i) u du + fderivWithin ℝ (fun y => Hc y cell i) T c dc = 0

/-- The **specification**: the system that the Newton solver assembles from the equations `E` at the states `u` and `c`
has as solutions exactly the increments `du` for which there is an increment `dc` such that the linearisations of the
global and of the local residual vanish.  The four functions are the residuals that the equations return, differentiable
at the states; the local residual jumps where flow begins and is differentiated among the states with the same cells in
flow, in which the derivative is unique. -/
def IsNewtonSystem (M : FeModel) (nl : Nat) (E : Eqs) (S : Sched) (A : FState) (out : V3 ℝ) (u : Fin (M.nn * M.ndof) → ℝ)
    (c : Fin (M.nc * nl) → ℝ) : Prop :=
  ∃ (Ru : (Fin (M.nn * M.ndof) → ℝ) → List ℝ) (Rc : (Fin (M.nc * nl) → ℝ) → List ℝ)
    (Hu : (Fin (M.nn * M.ndof) → ℝ) → V2 ℝ) (Hc : (Fin (M.nc * nl) → ℝ) → V2 ℝ),
    (∀ y, E.r { A.g with loc := { A.g.loc with u := List.ofFn y } } A.step = .ok (Ru y)) ∧
    (∀ y, E.r { A.g with loc := { A.g.loc with c := List.ofFn y } } A.step = .ok (Rc y)) ∧
    (∀ y, E.h { A.g.loc with u := List.ofFn y } A.step = .ok (Hu y)) ∧
    (∀ y, E.h { A.g.loc with c := List.ofFn y } A.step = .ok (Hc y)) ∧
    (∀ q, q < M.nn * M.ndof → DifferentiableAt ℝ (fun y => at0 (Ru y) q) u ∧ DifferentiableAt ℝ (fun y => at0 (Rc y) q) c) ∧
    (∀ cell i, cell < M.nc → i < nl →
      DifferentiableAt ℝ (fun y => (Hu y).e cell i) u ∧
      DifferentiableWithinAt ℝ (fun y => (Hc y).e cell i) (SameFlow M.nc (nl) c) c) ∧
    UniqueDiffWithinAt ℝ (SameFlow M.nc (nl) c) c ∧
    (newtonSystem M (nl) E S A out).Sat fun s => s.2.length = M.nn * M.ndof ∧ ∀ du : Fin (M.nn * M.ndof) → ℝ,
      (∀ q, q < M.nn * M.ndof → ∑ j : Fin (M.nn * M.ndof), s.1.dense q j * du j = at0 s.2 q) ↔
        ∃ dc, NewtonStep (nn := M.nc) (nl := nl) (SameFlow M.nc (nl) c) (fun y q => at0 (Ru y) q) (fun y q => at0 (Rc y) q)
          (fun y => (Hu y).e) (fun y => (Hc y).e) u du c dc

/-- **C86**: the system that the Newton solver assembles for J2 plasticity at the states `u` and `c` is the Newton system
of the global and the local residual. -/
theorem C86_newton_plasticity {M : FeModel} (hM : M.Ok) (hB : Blocks M)
    (hcov : ∀ cell, cell < M.nc → ∃ k, k < M.domains.length ∧ cell ∈ dom M k) (hnc : 0 < M.nc)
    {P : Nat → Plast ℝ} (hP : POk M P) (hc : Consts M fun k => (P k).mat) {pow23 : ℝ → ℝ} {powF : Fad → Fad} {B : Nat → Loads}
    {t : Nat} (hL : LoadsOk M (P 0) (B t)) {init : Nat → Nat → Nat → Nat} {pE pP pF : Nat → Fad → Fad}
    {Q : PSched} (hQ : Q.Ok M) {S : Sched} (hS : S.Ok M) {A : FState} (ht : A.step = t)
    (hA : A.g.Ok M (localDofs M.dim)) {u : Fin (M.nn * M.ndof) → ℝ} (hu : A.g.loc.u = List.ofFn u)
    {c : Fin (M.nc * localDofs M.dim) → ℝ} (hcc : A.g.loc.c = List.ofFn c)
    (hR : EachCell M fun k cell => Plast.Regular (P k) (pF k) powF pow23 (gNumbers M A.g cell))
    (hflow : EachCell M fun k cell => 0 < at0 A.g.loc.c (cell * localDofs M.dim + 1) →
      Smooth (P k).mat (pE k) (pP k) (numbers M A.g.loc cell) ∧
        J2.Regular (P k).mat (numbers M A.g.loc cell) ∧ 0 < (matOf M (fun k => (P k).mat) A.g.loc k cell).K)
    {out : V3 ℝ} (ho : out.d0 = M.nc ∧ out.d1 = localDofs M.dim ∧ out.d2 = localDofs M.dim) :
    IsNewtonSystem M (localDofs M.dim) (plastEqs M P pow23 powF B init pE pP pF Q) S A out u c := by
  set E := plastEqs M P pow23 powF B init pE pP pF Q with hE
  subst ht
  have eu : ({ A.g with loc := { A.g.loc with u := List.ofFn u } } : GArgs ℝ) = A.g := by rw [← hu]
  have ec : ({ A.g with loc := { A.g.loc with c := List.ofFn c } } : GArgs ℝ) = A.g := by rw [← hcc]
  have eu' : ({ A.g.loc with u := List.ofFn u } : Args ℝ) = A.g.loc := by rw [← hu]
  have ec' : ({ A.g.loc with c := List.ofFn c } : Args ℝ) = A.g.loc := by rw [← hcc]
  have hcol : M.npc * M.ndof ≠ 0 := Nat.mul_ne_zero (Nat.succ_ne_zero _) hM.ndof.ne'
  -- the four derivatives
  obtain ⟨Ru, JU, a1, a2, a3⟩ := C72_gradient_u (powF := powF) (pE := pE) (pP := pP) (pF := pF) (pow23 := pow23) hM hP hL init hB
    hA hQ.eR hQ.sch hQ.add hQ.eF hQ.schF (u := u) (by rw [eu]; exact hR)
  obtain ⟨Rc, JC, b1, b2, b3⟩ := C72_gradient_c (powF := powF) (pE := pE) (pP := pP) (pF := pF) (pow23 := pow23) hM hP hL init hB
    hA hQ.eR hQ.sch hQ.add hQ.eF hQ.schF (c := c) hR
  obtain ⟨Hu, KU, d1, d2, d3⟩ := C65_gradient_u (pE := pE) (pP := pP) hM hB hP.j hA.loc hQ.ordF hQ.schLF (u := u) hM.ndof.ne'
    (fun _ => hQ.ord) (fun _ => hQ.schL)
  obtain ⟨Hc, KC, e1, e2, e3⟩ := C65_gradient_c_active (pE := pE) (pP := pP) hM hB hP.j hA.loc hQ.ordF hQ.schLF (c := c)
    (fun _ => hQ.ord) (fun _ => hQ.schL)
  rw [eu] at a2
  rw [ec] at b2
  rw [eu'] at d2 d3
  rw [ec'] at e2 e3
  have hRcu : Rc c = Ru u := by
    have h1 := (b1 c).1
    have h2 := (a1 u).1
    rw [ec] at h1
    rw [eu] at h2
    have h3 := h1.symm.trans h2
    injection h3
  have hHcu : Hc c = Hu u := by
    have h1 := e1 c
    have h2 := d1 u
    rw [ec'] at h1
    rw [eu'] at h2
    have h3 := h1.symm.trans h2
    injection h3
  -- their sizes
  obtain ⟨JU', a2', aD, -⟩ := Plast.gradient_ok hM hB hQ.schF hcol (mk := seeds 0)
    (plastEv_rowAdd Fad.fabs powF (lift_ok hP pE pP pF) init hQ.eF) hA
  obtain ⟨JC', b2', bD, -⟩ := Plast.gradient_ok hM hB hQ.schF localDofs_pos (mk := seeds 2)
    (plastEv_rowAdd Fad.fabs powF (lift_ok hP pE pP pF) init hQ.eF) hA
  obtain ⟨KU', d2', dD, -⟩ := C64_gradient hM hB localDofs_pos hQ.schLF hcol
    (mk := ⟨seedOf, constOf, constOf, constOf, constOf, constOf⟩) (residualF_rowWise (pE := pE) (pP := pP) hM hB hP.j hQ.ordF) hA.loc
  obtain ⟨KC', e2', eD, hlead⟩ := leading_local_jacobian (pE := pE) (pP := pP) hM hB hcov hP.j hc hA.loc hQ.ordF hQ.schLF
    hflow
  have x1 : JU' = JU := by have := a2'.symm.trans a2; injection this
  have x2 : JC' = JC := by have := b2'.symm.trans b2; injection this
  have x3 : KU' = KU := by have := d2'.symm.trans d2; injection this
  have x4 : KC' = KC := by have := e2'.symm.trans e2; injection this
  subst x1 x2 x3 x4
  obtain ⟨v, hv, hvD, -⟩ := C64_residual hM hB localDofs_pos hQ.schL (residualEv_rowWise hP.j hQ.ord _ _ _) hA.loc
  have hvu : v = Hu u := by
    have := hv.symm.trans (show _ = Res.ok (Hu u) from eu' ▸ d1 u)
    injection this
  subst hvu
  -- the derivatives of the local residual
  have f3 : ∀ cell i, cell < M.nc → i < localDofs M.dim → HasFDerivAt (fun y => (Hu y).e cell i)
      (∑ l ∈ range (M.npc * M.ndof), KU'.e cell i l • coord (M.nn * M.ndof) (cellDof M.npc M.ndof M.c2n cell l)) u := by
    intro cell i hcell hi
    obtain ⟨k, hk, hck⟩ := hcov cell hcell
    exact d3 k hk cell hck (fun hpos => (hflow k hk cell hck hpos).1) i hi
  have f4 : ∀ cell i, cell < M.nc → i < localDofs M.dim → HasFDerivWithinAt (fun y => (Hc y).e cell i)
      (∑ l ∈ range (localDofs M.dim), KC'.e cell i l • coord (M.nc * localDofs M.dim) (cell * localDofs M.dim + l))
      (SameFlow M.nc (localDofs M.dim) c) c := by
    intro cell i hcell hi
    obtain ⟨k, hk, hck⟩ := hcov cell hcell
    have hf := hflow k hk cell hck
    rw [hcc, at0_ofFn] at hf
    exact e3 k hk cell hck (fun hpos => (hf hpos).1) i hi
  have hun : UniqueDiffWithinAt ℝ (SameFlow M.nc (localDofs M.dim) c) c :=
    sameFlow_unique (by have := stressTerms_eq hP.j.dim; omega) c
  refine ⟨Ru, Rc, Hu, Hc, fun y => (a1 y).1, fun y => (b1 y).1, d1, e1, fun q hq => ⟨(IsGradient.row a3 hq).1, (IsGradient.row b3 hq).1⟩,
    fun cell i hcell hi => ⟨(f3 cell i hcell hi).differentiableAt, (f4 cell i hcell hi).differentiableWithinAt⟩, hun, ?_⟩
  let L : Lin := ⟨fun q => at0 (Ru u) q, (Hu u).e, JU'.e, JC'.e, KU'.e, KC'.e⟩
  have hJ : Jacs M (localDofs M.dim) E A.g A.step L :=
    ⟨⟨JU', a2', aD.1, aD.2.1, aD.2.2, fun _ _ _ _ _ _ => rfl⟩, ⟨JC', b2', bD.1, bD.2.1, bD.2.2, fun _ _ _ _ _ _ => rfl⟩,
      ⟨KU', d2', dD.1, dD.2.1, dD.2.2, fun _ _ _ _ _ _ => rfl⟩, ⟨KC', e2', eD.1, eD.2.1, eD.2.2, fun _ _ _ _ _ _ => rfl⟩⟩
  have hV : Vals M (localDofs M.dim) E A.g A.step L :=
    ⟨⟨Ru u, eu ▸ (a1 u).1, (a1 u).2, fun _ _ => rfl⟩, ⟨Hu u, hv, hvD.1, hvD.2, fun _ _ _ _ => rfl⟩⟩
  refine (C83_newton_system hM hnc (Nat.pos_of_ne_zero localDofs_pos) hS hJ hV ho hlead).mono ?_
  rintro s ⟨-, -, -, s4, s5⟩
  refine ⟨s4, fun du => ?_⟩
  have hsum : ∀ q, ∑ j : Fin (M.nn * M.ndof), s.1.dense q j * du j =
      ∑ j ∈ range (M.nn * M.ndof), s.1.dense q j * coord (M.nn * M.ndof) j du := by
    intro q
    rw [sum_range]
    exact sum_congr rfl fun j _ => by rw [coord_lt j.2]
  simp only [hsum]
  rw [s5 fun j => coord (M.nn * M.ndof) j du]
  -- the two forms of the linearised equations
  have key : ∀ (dc : Fin (M.nc * localDofs M.dim) → ℝ) (dc' : Nat → Nat → ℝ),
      (∀ cell i, cell < M.nc → i < localDofs M.dim → dc' cell i = coord (M.nc * localDofs M.dim) (cell * localDofs M.dim + i) dc) →
      (Linearised M (localDofs M.dim) L (fun j => coord (M.nn * M.ndof) j du) dc' ↔
        NewtonStep (nn := M.nc) (nl := localDofs M.dim) (SameFlow M.nc (localDofs M.dim) c) (fun y q => at0 (Ru y) q) (fun y q => at0 (Rc y) q)
            (fun y => (Hu y).e) (fun y => (Hc y).e) u du c dc) := by
    intro dc dc' hdc
    have g1 : ∀ q, q < M.nn * M.ndof → (L.r q + scatteredVec M.npc M.ndof M.c2n none M.nc (fun c l =>
        ∑ s ∈ range (ng M), L.RU c l s * coord (M.nn * M.ndof) (dof M c s) du + ∑ j ∈ range (localDofs M.dim), L.RC c l j * dc' c j) q =
        at0 (Ru u) q + fderiv ℝ (fun y => at0 (Ru y) q) u du + fderiv ℝ (fun y => at0 (Rc y) q) c dc) := by
      intro q hq
      rw [(IsGradient.row a3 hq).2, (IsGradient.row b3 hq).2, add_assoc, ← Bnd.scatteredVec_add]
      congr 1
      refine scatteredVec_congr (fun cell l hcell hl => ?_) q
      congr 1
      exact sum_congr rfl fun j hj => by rw [hdc cell j hcell (mem_range.1 hj)]
    have g2 : ∀ cell i, cell < M.nc → i < localDofs M.dim →
        L.H cell i + ∑ l ∈ range (ng M), L.HU cell i l * coord (M.nn * M.ndof) (dof M cell l) du +
          ∑ j ∈ range (localDofs M.dim), L.HC cell i j * dc' cell j =
        (Hu u).e cell i + fderiv ℝ (fun y => (Hu y).e cell i) u du +
          fderivWithin ℝ (fun y => (Hc y).e cell i) (SameFlow M.nc (localDofs M.dim) c) c dc := by
      intro cell i hcell hi
      rw [(f3 cell i hcell hi).fderiv, (f4 cell i hcell hi).fderivWithin hun]
      simp only [ContinuousLinearMap.sum_apply, ContinuousLinearMap.smul_apply, smul_eq_mul]
      congr 1
      exact sum_congr rfl fun j hj => by rw [hdc cell j hcell (mem_range.1 hj)]
    exact ⟨fun h => ⟨fun q hq => (g1 q hq).symm.trans (h.glob q hq), fun cell i hcell hi => (g2 cell i hcell hi).symm.trans (h.loc cell i hcell hi)⟩,
      fun h => ⟨fun cell i hcell hi => (g2 cell i hcell hi).trans (h.loc cell i hcell hi), fun q hq => (g1 q hq).trans (h.glob q hq)⟩⟩
  constructor
  · rintro ⟨dc', h⟩
    refine ⟨fun q => dc' (q / localDofs M.dim) (q % localDofs M.dim), (key _ dc' ?_).1 h⟩
    intro cell i hcell hi
    rw [coord_lt (show cell * localDofs M.dim + i < M.nc * localDofs M.dim from by nlinarith)]
    dsimp only
    rw [Nat.mul_comm cell, Nat.mul_add_div (by omega), Nat.div_eq_of_lt hi, Nat.mul_add_mod, Nat.mod_eq_of_lt hi, Nat.add_zero]
  · rintro ⟨dc, h⟩
    exact ⟨fun cell i => coord (M.nc * localDofs M.dim) (cell * localDofs M.dim + i) dc, (key dc _ fun _ _ _ _ => rfl).2 h⟩

/-- **C86**, along the iterations: after the update of the local state, which precedes each of the systems
(NewtonRaphsonSolver.hpp:583-598 and 618-622), from any reachable previous states, the system is the Newton system.  The
hypotheses are on geometry and material alone. -/
theorem C86_newton_iteration {M : FeModel} (hM : M.Ok) (hB : Blocks M)
    (hcov : ∀ cell, cell < M.nc → ∃ k, k < M.domains.length ∧ cell ∈ dom M k) (hnc : 0 < M.nc)
    {P : Nat → Plast ℝ} (hP : POk M P) (hc : Consts M fun k => (P k).mat) {pow23 : ℝ → ℝ} {powF : Fad → Fad} {B : Nat → Loads}
    {A : FState} (hL : LoadsOk M (P 0) (B A.step)) {init : Nat → Nat → Nat → Nat} {pE pP pF : Nat → Fad → Fad}
    {Q : PSched} (hQ : Q.Ok M) {S : Sched} (hS : S.Ok M)
    (hA : A.g.Ok M (localDofs M.dim)) {u : Fin (M.nn * M.ndof) → ℝ} (hu : A.g.loc.u = List.ofFn u)
    (hR : EachCell M fun k cell => Plast.Regular (P k) (pF k) powF pow23 (gNumbers M A.g cell))
    (hm : EachCell M fun k cell => (matOf M (fun k => (P k).mat) A.g.loc k cell).Ok ∧
      0 < (matOf M (fun k => (P k).mat) A.g.loc k cell).K)
    (hpt : EachCell M fun _ cell => (stateOf M A.g.loc.cp cell).Ok)
    (hpen : EachCell M fun k cell => PenOk (pE k) (P k).mat.penE (meanDensity (M.dim + 1) (numbers M A.g.loc cell).z) ∧
      PenOk (pP k) (P k).mat.penP (meanDensity (M.dim + 1) (numbers M A.g.loc cell).z))
    {ordU : Nat → List Nat} (hoU : OrdOk M ordU) {schU : Nat → Nat → List Nat} (hsU : LSched M schU)
    {out : V3 ℝ} (ho : out.d0 = M.nc ∧ out.d1 = localDofs M.dim ∧ out.d2 = localDofs M.dim) :
    (j2Update M (fun k => (P k).mat) ordU schU A.g.loc).Sat fun cl => ∃ c : Fin (M.nc * localDofs M.dim) → ℝ, cl = List.ofFn c ∧
      IsNewtonSystem M (localDofs M.dim) (plastEqs M P pow23 powF B init pE pP pF Q) S
        { A with g := { A.g with loc := { A.g.loc with c := cl } } } out u c := by
  refine (update_flow (pE := pE) (pP := pP) hM hB hP.j hc hA.loc hm hpt (fun k hk cell hcell => ⟨?_, hpen k hk cell hcell⟩) hoU hsU).mono ?_
  · have := (hR k hk cell hcell).det
    rw [show (P k).d = M.dim from hP.j.d k hk] at this
    exact this
  rintro cl ⟨c0, c1⟩
  have e : cl = List.ofFn fun i : Fin (M.nc * localDofs M.dim) => cl[i.1]'(by rw [c0]; exact i.2) := by
    refine List.ext_getElem (by rw [List.length_ofFn, c0]) fun i h1 h2 => ?_
    rw [List.getElem_ofFn]
  refine ⟨_, e, ?_⟩
  exact C86_newton_plasticity hM hB hcov hnc hP hc (A := { A with g := { A.g with loc := { A.g.loc with c := cl } } }) hL hQ hS rfl
    ⟨⟨hA.loc.u, hA.loc.up, c0, hA.loc.cp, hA.loc.z, hA.loc.x⟩, hA.n⟩ hu e
    (fun k hk cell hcell => (hR k hk cell hcell).same rfl rfl) c1 ho

end Plato.Cond
