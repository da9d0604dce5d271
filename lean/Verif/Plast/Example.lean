import Verif.Plast.Balance
import Verif.Bnd.False
import Verif.J2.Example
import Verif.Alg.PenaltyModel

/-!
# C71 on concrete meshes; the stress in balance with different penalties
-/

namespace Plato.Plast
open Finset Plato Plato.Mech Plato.Thermal Plato.J2 Plato.Dyn
open Plato.Bnd hiding Add

/-! ## A triangle with a body load and a load on an edge -/

/-- One triangle with displacement and pressure. -/
def triM : FeModel := { Bnd.tri with ndof := 3 }

theorem triM_ok : triM.Ok where
  dim := by decide
  ndof := by decide
  mesh := Bnd.tri_ok.mesh
  adj := Bnd.tri_ok.adj
  graph := Bnd.tri_ok.graph
  some_domain := by decide
  cells := by decide

/-- Weight of the triangle. -/
noncomputable def weightLoad : BodyLoad ℝ := ⟨1, [1 / 2], ⟨3, 1, fun _ _ => 1 / 3⟩, [-9], [1], 1⟩

/-- Material with pressure scaling 2 and load control 1/2. -/
noncomputable def triP : Plast ℝ := ⟨slabJ, 1 / 2, 3, 2, 0, id, [weightLoad], 1 / 2⟩

theorem triP_ok : POk triM fun _ => triP where
  j := ⟨.inl rfl, fun _ _ => rfl, fun _ _ => rfl, fun _ _ => by simp [triP, slabJ, triM, Bnd.tri]⟩
  loads := by
    intro k hk L hL
    have hk : k < 1 := hk
    have hL : L = weightLoad := by simpa [triP] using hL
    subst hL
    interval_cases k
    exact ⟨by simp [weightLoad], by simp [weightLoad, triM, Bnd.tri], by simp [weightLoad], by simp [weightLoad, dom, triM, Bnd.tri],
      by simp [weightLoad, dom, triM, Bnd.tri], by simp [weightLoad, triM]⟩

theorem triRule : ∃ rule : CubRule ℝ, linearTetCubRule 2 = .ok rule := ⟨_, rfl⟩

/-- A load on one edge. -/
noncomputable def triB : Loads :=
  ⟨Bnd.triFaces, fun _ _ _ => 0, (Classical.choose triRule).weight, [.load [1] fun k => k], [], fun _ _ _ => 0, fun _ => [0],
    fun _ _ _ => 0, fun _ => []⟩

theorem triB_ok : LoadsOk triM triP triB where
  mech := by
    refine ⟨?_, by decide, ?_⟩
    · intro B hB
      have hB : B = .load [1] fun k => k := by simpa [triB] using hB
      subst hB
      exact Bnd.tri_facesOk _ fun f hf => by rw [List.mem_singleton.1 hf]; omega
    · intro B hB hp
      have hB : B = .load [1] fun k => k := by simpa [triB] using hB
      subst hB
      exact absurd hp id
  heat := ⟨fun B hB => (List.not_mem_nil hB).elim, by decide, fun B hB => (List.not_mem_nil hB).elim⟩
  cub := ⟨_, Classical.choose_spec triRule, rfl⟩
  orders := by
    intro b C hC
    match b, hC with
    | 0, hC =>
      have hC : C = .load [1] fun k => k := by simpa [triB] using hC.symm
      subst hC
      exact List.Perm.refl _
    | b + 1, hC => simp [triB] at hC
  ordersT := fun b C hC => by simp [triB] at hC
  pressure := by
    intro _ C hC
    have hC : C = .load [1] fun k => k := by simpa [triB] using hC
    subst hC
    rfl

/-- Some displacements, pressures and plastic strains. -/
noncomputable def triA : GArgs ℝ :=
  ⟨⟨[0, 0, 1, 2, 0, 3, 0, 4, 5], List.replicate 9 0, List.replicate 10 1, List.replicate 10 0, [1, 1, 1], [0, 0, 1, 0, 0, 1]⟩,
    [1, 2, 3, 4, 5, 6]⟩

theorem triA_ok : triA.Ok triM (localDofs triM.dim) := by
  refine ⟨?_, ?_⟩
  · constructor <;> simp [triA, triM, Bnd.tri, localDofs]
  · simp [triA, triM, Bnd.tri]

theorem tri_each {p : Nat → Nat → Prop} (h : p 0 0) : EachCell triM p := by
  intro k hk cell hc
  have hk : k < 1 := hk
  interval_cases k
  have : cell = 0 := by simpa [dom, triM, Bnd.tri] using hc
  rw [this]
  exact h

theorem tri_det : EachCell triM fun _ cell => detForm triM.dim (gNumbers triM triA cell).loc.x ≠ 0 := by
  refine tri_each ?_
  norm_num [gNumbers, gData, cellData, triA, triM, Bnd.tri, cellNode, FeModel.npc, at0, atN, plainG, plainMk, plainOf, detForm, edge]

/-- Orders for the triangle. -/
def triSch (_ j : Nat) : List Nat := if j = 7 then List.range 9 else [0]

theorem tri_ws : WsSched triM triSch := by
  refine ⟨fun k j hk hj => ?_, fun j hj => ?_⟩
  · have hk : k < 1 := hk
    interval_cases k
    unfold triSch
    rw [if_neg (by omega)]
    exact List.Perm.refl _
  · unfold triSch
    rw [if_neg (by omega)]
    exact List.Perm.refl _

theorem tri_add : AddSched triM (triM.npc * triM.ndof) triSch := by
  refine ⟨fun k hk => ?_, ?_⟩
  · have hk : k < 1 := hk
    interval_cases k
    exact List.Perm.refl _
  · exact List.Perm.refl _

theorem tri_ev : EvSched triM fun _ _ => [0] := by
  intro k j hk
  have hk : k < 1 := hk
  interval_cases k
  exact List.Perm.refl _

/-- All hypotheses of C71 hold for the triangle; the sum of the forces in the second direction. -/
example (pow23 : ℝ → ℝ) : (plastResidual triM (fun _ => triP) pow23 triB (fun _ _ _ => 0) (fun _ _ => [0]) triSch triA).Sat fun r =>
    ∑ n ∈ range triM.nn, at0 r (triM.ndof * n + 1) = -bodyWork triM (fun _ => triP) triA (Tm.unknown triM.ndof 1) -
      boundaryWork triM (fun _ => triP) triB triA (Tm.unknown triM.ndof 1) :=
  C71_forces triM_ok triP_ok pow23 triB_ok _ tri_ev triA_ok tri_ws tri_add tri_det (by decide)

/-! ## Different penalties -/

/-- A step beyond the tolerance has plastic flow. -/
theorem returned_pos {m : Mat} {tol : ℝ} {E : Tensor} {prev cur : Point} (h : Returned m tol E prev cur)
    (ht : tol < m.f E prev) : 0 < cur.inc := by
  refine lt_of_le_of_ne h.inc fun h0 => ?_
  obtain ⟨N, -, h2, h3⟩ := h.flow
  rw [← h0, mul_zero, zero_smul, add_zero] at h2 h3
  have h1 := h.acc
  rw [← h0, add_zero] at h1
  have : m.f E cur = m.f E prev := by unfold Mat.f Mat.over; rw [h1, h2, h3]
  linarith [h.admissible]

section Penalties
variable {M : FeModel} (hM : M.Ok) (hB : Blocks M) {P : Nat → Plast ℝ} (h : POk M P) (hc : Consts M fun k => (P k).mat)
  {A : Args ℝ} (hA : A.Ok M (localDofs M.dim)) (hm : EachCell M fun k cell => (matOf M (fun k => (P k).mat) A k cell).Ok)
  (hp : EachCell M fun _ cell => (stateOf M A.cp cell).Ok)
include hM hB h hc hA hm hp

/-- **C71, other penalties**: without kinematic hardening, where plastic strain grows the stress whose work C71 counts is
off the yield surface by the ratio of the two penalties. -/
theorem C71_ratio {ord : Nat → List Nat} (ho : OrdOk M ord) {sch : Nat → Nat → List Nat} (hs : LSched M sch)
    (hH : ∀ k, k < M.domains.length → (P k).mat.hardKin = 0) (hback : EachCell M fun _ cell => (stateOf M A.cp cell).back = 0) :
    (j2Update M (fun k => (P k).mat) ord sch A).Sat fun c => EachCell M fun k cell =>
      tolerance < (matOf M (fun k => (P k).mat) A k cell).f (strainOf M (fun k => (P k).mat) A k cell) (stateOf M A.cp cell) →
      let σ := (P k).stressDev (numbers M A cell).u (numbers M { A with c := c } cell).c (numbers M A cell).z
        (numbers M A cell).x
      let q := stateOf M c cell
      let m := matOf M (fun k => (P k).mat) A k cell
      q.back = 0 ∧ 0 < m.sy + m.K * q.acc ∧
      √(3 / 2) * nrm σ * |(P k).mat.penE (meanDensity (M.dim + 1) (numbers M A cell).z)| =
        |(P k).penOf (numbers M A cell).z| * (m.sy + m.K * q.acc) := by
  refine (C63_update hM hB h.j hc hA hm hp ho hs).mono ?_
  rintro c ⟨-, c1, -⟩ k hk cell hcell ht
  have hdk : (P k).d = M.dim := h.j.d k hk
  have hr := c1 k hk cell hcell
  have hpos := returned_pos hr ht
  have hmk := hm k hk cell hcell
  dsimp only
  have hb0 : (stateOf M c cell).back = 0 := by
    obtain ⟨N, -, -, h3⟩ := hr.flow
    rw [h3, hback k hk cell hcell, show (matOf M (fun k => (P k).mat) A k cell).H = 0 by
      unfold matOf J2.mat; dsimp only; rw [hH k hk, mul_zero]]
    simp
  have hcons := hr.consistent hpos
  unfold Mat.f Mat.over at hcons
  rw [hb0, sub_zero, nrm_smul] at hcons
  have hacc : 0 ≤ (stateOf M c cell).acc := by rw [hr.acc]; exact add_nonneg (hp k hk cell hcell).acc hr.inc
  refine ⟨hb0, add_pos_of_pos_of_nonneg hmk.sy (mul_nonneg hmk.K hacc), ?_⟩
  have e : (P k).stressDev (numbers M A cell).u (numbers M { A with c := c } cell).c (numbers M A cell).z
      (numbers M A cell).x = (2 * ((P k).penOf (numbers M A cell).z * (P k).mat.shear)) •
        deviator (strainOf M (fun k => (P k).mat) A k cell - (stateOf M c cell).ep) := by
    unfold Plast.stressDev strainOf
    rw [hdk]
    rfl
  have em : (matOf M (fun k => (P k).mat) A k cell).mu =
      (P k).mat.penE (meanDensity (M.dim + 1) (numbers M A cell).z) * (P k).mat.shear := by
    unfold matOf J2.mat
    dsimp only
    rw [show (P k).mat.d = M.dim from hdk]
  rw [e, nrm_smul]
  rw [em] at hcons
  have : (matOf M (fun k => (P k).mat) A k cell).sy + (matOf M (fun k => (P k).mat) A k cell).K * (stateOf M c cell).acc =
    √(3 / 2) * (|2 * ((P k).mat.penE (meanDensity (M.dim + 1) (numbers M A cell).z) * (P k).mat.shear)| *
      nrm (deviator (strainOf M (fun k => (P k).mat) A k cell - (stateOf M c cell).ep))) := by linarith
  rw [this]
  simp only [abs_mul]
  ring

end Penalties

/-! ### The default exponents

`mPenaltySIMP(3)` and `mMinErsatzSIMP(1e-9)` of the residual (InfinitesimalStrainPlasticityResidual.hpp:356-357) without a
sublist "Penalty Function"; "Elastic Properties Penalty Exponent" 1 of the local equations
(J2PlasticityLocalResidual.hpp:191-192). -/

/-- The square of J2, without kinematic hardening, with the default penalties of the elastic properties. -/
noncomputable def defJ : J2 ℝ :=
  { slabJ with hardKin := 0, penE := Plato.simp ⟨1e-9, 1, 4, 1 / 10, 0⟩ }

noncomputable def defP : Plast ℝ := ⟨defJ, 1 / 2, 1, 1, 0, Plato.simp ⟨1e-9, 3, 4, 1 / 10, 0⟩, [], 1⟩

/-- Half density. -/
noncomputable def defA : Args ℝ := { slabA with z := [1 / 2, 1 / 2, 1 / 2, 1 / 2] }

theorem defA_ok : defA.Ok Tm.slab (localDofs Tm.slab.dim) := by
  constructor <;> simp [defA, slabA, Tm.slab, localDofs, Tm.slabX]

theorem defP_ok : POk Tm.slab fun _ => defP :=
  ⟨⟨.inl rfl, fun _ _ => rfl, fun _ _ => rfl, fun _ _ => by simp [defP, defJ, slabJ, Tm.slab]⟩, fun _ _ L hL => by cases hL⟩

theorem def_density (cell : Nat) (hc : cell < 2) : meanDensity 3 (numbers Tm.slab defA cell).z = 1 / 2 := by
  interval_cases cell <;>
    norm_num [meanDensity, numbers, cellData, defA, slabA, Tm.slab, cellNode, FeModel.npc, at0, atN, plainMk, plainOf,
      sum_range_succ]

theorem def_penE : Plato.simp ⟨1e-9, 1, 4, 1 / 10, 0⟩ (1 / 2) = 1e-9 + (1 - 1e-9) * (1 / 2) := by
  unfold Plato.simp; simp

theorem def_pen : Plato.simp ⟨1e-9, 3, 4, 1 / 10, 0⟩ (1 / 2) = 1e-9 + (1 - 1e-9) * (1 / 8) := by
  unfold Plato.simp
  dsimp only
  rw [show (3 : ℝ) = ((3 : ℕ) : ℝ) by norm_num, Real.rpow_natCast]
  norm_num

theorem def_mat (k cell : Nat) (hc : cell < 2) : (matOf Tm.slab (fun _ => defJ) defA k cell).Ok := by
  have h := def_density cell hc
  constructor <;> simp only [matOf, J2.mat, defJ, slabJ, id] <;> rw [h] <;> (try rw [def_penE]) <;> norm_num

theorem def_yields (cell : Nat) (hc : cell < 2) :
    tolerance < (matOf Tm.slab (fun _ => defJ) defA cell cell).f
      (strainOf Tm.slab (fun _ => defJ) defA cell cell) (stateOf Tm.slab defA.cp cell) := by
  have e := trial_tensor (P := defJ) (.inl rfl) (numbers Tm.slab defA cell).u (numbers Tm.slab defA cell).cp
    (numbers Tm.slab defA cell).z (numbers Tm.slab defA cell).x rfl
  have e' : defJ.trial Real.sqrt (numbers Tm.slab defA cell).u (numbers Tm.slab defA cell).cp
    (numbers Tm.slab defA cell).z (numbers Tm.slab defA cell).x = _ := e
  show _ < Mat.f (defJ.mat (numbers Tm.slab defA cell).z) (defJ.mechStrain _ _) (point 2 _)
  refine lt_of_lt_of_eq ?_ e'
  have h := def_density cell hc
  have h0 : ∀ i, (numbers Tm.slab defA cell).cp i = 0 := fun i => slab_zero _
  have hst : ∀ t, defJ.total (numbers Tm.slab defA cell).u (numbers Tm.slab defA cell).x t = if t = 2 then 10 else 0 :=
    fun t => slab_strain cell t hc
  have hq : sqForm 2 (defJ.eta (numbers Tm.slab defA cell).u (numbers Tm.slab defA cell).cp
      (numbers Tm.slab defA cell).z (numbers Tm.slab defA cell).x) = 200 * (1e-9 + (1 - 1e-9) * (1 / 2)) ^ 2 := by
    unfold J2.eta
    simp only [show defJ.d = 2 from rfl, show (2 + 1 : Nat) = 3 from rfl, h, show defJ.penE = Plato.simp ⟨1e-9, 1, 4, 1 / 10, 0⟩ from rfl,
      def_penE]
    norm_num [sqForm, etaForm, devForm, third, isNormal, stressTerms, J2.elasticOf, hst, J2.therm,
      show defJ.d = 2 from rfl, show defJ.thermal = false from rfl, show defJ.shear = 1 from rfl,
      h0, sum_range_succ]
  unfold J2.trial J2.norm
  simp only [show defJ.d = 2 from rfl, show (2 + 1 : Nat) = 3 from rfl, h, hq, h0]
  simp only [defJ, slabJ, id]
  have h1 : √(200 * (1e-9 + (1 - 1e-9) * (1 / 2)) ^ 2 : ℝ) ≥ 1 := Real.le_sqrt_of_sq_le (by norm_num)
  have h2 : √(3 / 2 : ℝ) ≥ 1 := Real.le_sqrt_of_sq_le (by norm_num)
  have h3 : √(3 / 2 : ℝ) * √(200 * (1e-9 + (1 - 1e-9) * (1 / 2)) ^ 2 : ℝ) ≥ 1 := by nlinarith
  unfold tolerance
  norm_num at h3 ⊢
  linarith

/-- **Refutation of the admissible stress with default penalties**: without input for the penalties, at half density and
with plastic flow, the stress whose work enters the balance is off the yield surface of the local equations. -/
theorem C71_default_penalties_false : ∃ (M : FeModel) (P : Nat → Plast ℝ) (ord : Nat → List Nat) (sch : Nat → Nat → List Nat)
    (A : Args ℝ), M.Ok ∧ Blocks M ∧ POk M P ∧ OrdOk M ord ∧ LSched M sch ∧ A.Ok M (localDofs M.dim) ∧
    (∀ k, (P k).pen = Plato.simp ⟨1e-9, 3, 4, 1 / 10, 0⟩ ∧ (P k).mat.penE = Plato.simp ⟨1e-9, 1, 4, 1 / 10, 0⟩) ∧
    (j2Update M (fun k => (P k).mat) ord sch A).Sat fun c => EachCell M fun k cell =>
      let σ := (P k).stressDev (numbers M A cell).u (numbers M { A with c := c } cell).c (numbers M A cell).z
        (numbers M A cell).x
      let q := stateOf M c cell
      let m := matOf M (fun k => (P k).mat) A k cell
      √(3 / 2) * nrm (σ - q.back) ≠ m.sy + m.K * q.acc := by
  refine ⟨Tm.slab, fun _ => defP, fun _ => [0], fun _ _ => [0], defA, Tm.slab_ok, slab_blocks, defP_ok, slab_ord,
    slab_sched, defA_ok, fun _ => ⟨rfl, rfl⟩, ?_⟩
  refine (C71_ratio Tm.slab_ok slab_blocks defP_ok (fun _ _ => ⟨rfl, rfl⟩) defA_ok
    (slab_each (def_mat _ _ (by omega)) (def_mat _ _ (by omega))) (slab_each (slab_state _) (slab_state _)) slab_ord slab_sched
    (fun _ _ => rfl) (slab_each (by
      ext i j; fin_cases i <;> fin_cases j <;> simp [stateOf, point, stressTensor, slab_zero, defA, Tm.slab]) (by
      ext i j; fin_cases i <;> fin_cases j <;> simp [stateOf, point, stressTensor, slab_zero, defA, Tm.slab]))).mono ?_
  intro c hr k hk cell hcell
  have hk' : k < 2 := hk
  have hce : cell = k := by
    interval_cases k
    · simpa [slab_dom0] using hcell
    · simpa [slab_dom1] using hcell
  subst hce
  obtain ⟨hb, hpos, e⟩ := hr cell hk cell hcell (def_yields cell hk')
  dsimp only at e hb hpos ⊢
  rw [hb, sub_zero]
  intro hne
  rw [hne] at e
  have hd := def_density cell hk'
  have e1 : defP.penOf (numbers Tm.slab defA cell).z = 1e-9 + (1 - 1e-9) * (1 / 8) := by
    unfold Plast.penOf
    rw [show defP.d + 1 = 3 from rfl, hd]
    exact def_pen
  have e2 : defP.mat.penE (meanDensity (Tm.slab.dim + 1) (numbers Tm.slab defA cell).z) = 1e-9 + (1 - 1e-9) * (1 / 2) := by
    rw [show Tm.slab.dim + 1 = 3 from rfl, hd]
    exact def_penE
  rw [e1, e2, mul_comm] at e
  have := mul_right_cancel₀ (ne_of_gt hpos) e
  norm_num at this

end Plato.Plast
