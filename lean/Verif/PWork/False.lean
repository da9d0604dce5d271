import Verif.PWork.Plastic
import Verif.Plast.Balance
import Verif.Mass.False
import Verif.J2.Example

/-!
# Elastic work in three dimensions
-/

namespace Plato.PWork
open Finset Plato Plato.Mech Plato.J2 Plato.Plast

/-- What stands in for the component 33 of the strain in the trace of `ComputeCauchyStress`, minus that component. -/
def slip (E : Tensor) : ℝ := 2 * E 1 2 - E 2 2

section Mesh
variable {M : FeModel} {P : Nat → WorkCrit ℝ} (hJ : WOk M P) {A : Args ℝ} {k : Nat} (hk : k < M.domains.length)
  (cell : Nat)
include hJ hk

/-- The elastic work of a cell in three dimensions. -/
theorem elastic_cell3 (hp : (P k).plastic = false) (h3 : M.dim = 3) :
    (P k).work (fun a => |a|) (numbers M A cell) = volume M P A k cell *
      (dot (meanStress M P A k cell) (elasticTensor M P A k cell - elasticTensor M P (old A) k cell) +
        (penalty M P A k cell * (P k).bulk - 2 * (penalty M P A k cell * (P k).mat.shear) / 3) *
          (1 / 2 * (slip (elasticTensor M P A k cell) + slip (elasticTensor M P (old A) k cell))) *
          ((elasticTensor M P A k cell).trace - (elasticTensor M P (old A) k cell).trace)) := by
  have e : (P k).mat.d = M.dim := hJ.d k hk
  have hd : (P k).mat.d = 2 ∨ (P k).mat.d = 3 := by rw [e]; exact hJ.dim
  have hm : strainTensor (P k).mat.d ((P k).misfitOf (numbers M A cell)) =
      elasticTensor M P A k cell - elasticTensor M P (old A) k cell := by
    have : (P k).misfitOf (numbers M A cell) = fun t => (P k).elasticAt (numbers M A cell).u (numbers M A cell).c
        (numbers M A cell).x t - (P k).elasticAt (numbers M A cell).up (numbers M A cell).cp (numbers M A cell).x t := by
      funext t
      unfold WorkCrit.misfitOf
      rw [hp, if_neg (by simp)]
    rw [this, strainTensor_sub, elasticAt_tensor hd, elasticAt_tensor hd, e]
    rfl
  have hs : ∀ B : Args ℝ, (P k).elasticAt (numbers M B cell).u (numbers M B cell).c (numbers M B cell).x 3 -
      (P k).elasticAt (numbers M B cell).u (numbers M B cell).c (numbers M B cell).x 2 = slip (elasticTensor M P B k cell) := by
    intro B
    have h := elasticAt_tensor (P := P k) hd (numbers M B cell).u (numbers M B cell).c (numbers M B cell).x
    have h' : elasticTensor M P B k cell = strainTensor (P k).mat.d ((P k).elasticAt (numbers M B cell).u (numbers M B cell).c
        (numbers M B cell).x) := by
      rw [h, e]
      rfl
    rw [h', e, h3]
    unfold slip strainTensor
    simp
    ring
  rw [work_tensor hd, hm, if_neg (by omega), Matrix.trace_sub, hs A]
  have := hs (old A)
  have e' : (P k).elasticAt (numbers M A cell).up (numbers M A cell).cp (numbers M A cell).x =
      (P k).elasticAt (numbers M (old A) cell).u (numbers M (old A) cell).c (numbers M (old A) cell).x := rfl
  rw [e', this]
  unfold meanStress stress volume penalty elasticTensor strainOf stateOf WorkCrit.volOf WorkCrit.penOf
  rw [e]
  rfl

end Mesh

/-- What the criterion adds in three dimensions to the change of the elastic energy of the step. -/
noncomputable def surplus (M : FeModel) (P : Nat → WorkCrit ℝ) (A : Args ℝ) : ℝ := cellSum M fun k cell =>
  volume M P A k cell * ((penalty M P A k cell * (P k).bulk - 2 * (penalty M P A k cell * (P k).mat.shear) / 3) *
    (1 / 2 * (slip (elasticTensor M P A k cell) + slip (elasticTensor M P (old A) k cell))) *
    ((elasticTensor M P A k cell).trace - (elasticTensor M P (old A) k cell).trace))

section Value
variable {M : FeModel} (hM : M.Ok) {P : Nat → WorkCrit ℝ} (hJ : WOk M P) (h3 : M.dim = 3)
  (hp : ∀ k, k < M.domains.length → (P k).plastic = false)
include hM hJ h3 hp

/-- **C76, one step in three dimensions**: the elastic work criterion is the change of the elastic energy plus a term
with the shear strain 23 and the strain 33 in which they take each other's place. -/
theorem C76_step_3d {A : Args ℝ} (hA : A.Ok M (localDofs M.dim)) {r : Run} (hr : r.Ok M) (mult : ℝ) :
    workValue M P mult r A = .ok (mult * (energy M P A - energy M P (old A) + surplus M P A)) := by
  rw [workValue_ok hM hJ hA hr, energy, energy, surplus, ← cellSum_sub, ← cellSum_add]
  congr 2
  refine cellSum_congr fun k hk cell _ => ?_
  rw [elastic_cell3 hJ hk cell (hp k hk) h3]
  unfold meanStress stress
  have e : penalty M P (old A) k cell = penalty M P A k cell := rfl
  have e' : volume M P (old A) k cell = volume M P A k cell := rfl
  rw [e, e', mean_work, mul_add, mul_sub]

/-- **C76, histories in three dimensions**. -/
theorem C76_history_3d {steps : Nat} {us cs : List (List ℝ)} {z x : List ℝ} (h : Steps M (localDofs M.dim) steps us cs z x)
    {rs : Nat → Run} (hrs : ∀ k, k < steps → (rs k).Ok M) (mult : ℝ) :
    problemValue M P mult rs steps us cs z x = .ok (mult * (energy M P (after M (localDofs M.dim) us cs z x steps) -
      energy M P (after M (localDofs M.dim) us cs z x 0) +
      ∑ k ∈ range steps, surplus M P (after M (localDofs M.dim) us cs z x (k + 1)))) := by
  unfold problemValue
  rw [evaluateCriterion_ok h (f := fun k => mult * (energy M P (after M (localDofs M.dim) us cs z x (k + 1)) -
    energy M P (after M (localDofs M.dim) us cs z x k) + surplus M P (after M (localDofs M.dim) us cs z x (k + 1))))]
  · rw [← mul_sum, sum_add_distrib, sum_range_sub fun k => energy M P (after M (localDofs M.dim) us cs z x k)]
  · intro k hk
    rw [C76_step_3d hM hJ h3 hp (after_ok h hk) (hrs k hk)]
    congr 4
    obtain ⟨e1, e2⟩ := old_after (M := M) (nl := localDofs M.dim) (us := us) (cs := cs) (z := z) (x := x) k
    have ez : (after M (localDofs M.dim) us cs z x k).z = z := by cases k <;> rfl
    have ex : (after M (localDofs M.dim) us cs z x k).x = x := by cases k <;> rfl
    exact energy_congr e1 e2 ez.symm ex.symm

end Value

/-! ## A closed cycle -/

/-- Displacements `(0, b z, a z)`; pressure and temperature are zero. -/
noncomputable def stretch (M : FeModel) (x : List ℝ) (a b : ℝ) : List ℝ :=
  (List.range (M.nn * M.ndof)).map fun i => if i % M.ndof = 1 then b * at0 x (3 * (i / M.ndof) + 2)
    else if i % M.ndof = 2 then a * at0 x (3 * (i / M.ndof) + 2) else 0

/-- The cycle: stretch, shear, release the stretch, release the shear. -/
noncomputable def cycleU (M : FeModel) (x : List ℝ) : List (List ℝ) :=
  [stretch M x 1 0, stretch M x 1 1, stretch M x 0 1, stretch M x 0 0]

/-- No plastic strains. -/
noncomputable def cycleC (M : FeModel) : List (List ℝ) := List.replicate 4 (List.replicate (M.nc * localDofs M.dim) 0)

/-- Strain of the cycle. -/
noncomputable def cycleE (a b : ℝ) : Tensor := !![0, 0, 0; 0, 0, b / 2; 0, b / 2, a]

section Cycle
variable {M : FeModel} (hM : M.Ok) {P : Nat → WorkCrit ℝ} (hJ : WOk M P) (h3 : M.dim = 3)
  (ht : ∀ k, k < M.domains.length → (P k).mat.thermal = false) {z x : List ℝ}
  (hx : EachCell M fun _ cell => detForm M.dim (fun a j => at0 x (M.dim * cellNode M.npc M.c2n cell a + j)) ≠ 0)
include hM hJ h3 ht hx

theorem stretch_strain (a b : ℝ) (up c cp : List ℝ) : EachCell M fun k cell =>
    strainOf M (fun k => (P k).mat) ⟨stretch M x a b, up, c, cp, z, x⟩ k cell = cycleE a b := by
  intro k hk cell hcell
  have e : (P k).mat.d = M.dim := hJ.d k hk
  have en : (P k).mat.ndof = M.ndof := hJ.ndof k hk
  have hlt := dom_lt hM hk hcell
  have hn : 3 < M.ndof := by
    rw [← en]
    unfold J2.ndof
    rw [e, h3]
    split <;> omega
  have h0 : (P k).mat.therm (numbers M (⟨stretch M x a b, up, c, cp, z, x⟩ : Args ℝ) cell).u = 0 := by
    unfold J2.therm
    rw [ht k hk]
    simp
  unfold strainOf J2.mechStrain
  rw [h0, zero_smul, sub_zero, en, e]
  ext i j
  rw [smallStrain_affine (A := fun i j => if i = 1 ∧ j = 2 then b else if i = 2 ∧ j = 2 then a else 0) (b := fun _ => 0)
    (X := (numbers M (⟨stretch M x a b, up, c, cp, z, x⟩ : Args ℝ) cell).x) hJ.dim (hx k hk cell hcell)]
  · rw [h3, if_pos ⟨i.2, j.2⟩]
    unfold cycleE
    fin_cases i <;> fin_cases j <;> simp
  · intro n i hn' hi
    have hi3 : i < 3 := by omega
    have hnode : cellNode M.npc M.c2n cell n < M.nn := hM.mesh.node_lt hlt hn'
    have hdof : cellDof M.npc M.ndof M.c2n cell (n * M.ndof + i) = M.ndof * cellNode M.npc M.c2n cell n + i := by
      have h0 : 0 < M.ndof := by omega
      have hi : i < M.ndof := by omega
      unfold cellDof
      rw [show (n * M.ndof + i) / M.ndof = n by
        rw [Nat.mul_comm, Nat.mul_add_div h0, Nat.div_eq_of_lt hi, Nat.add_zero],
        show (n * M.ndof + i) % M.ndof = i by rw [Nat.mul_comm, Nat.mul_add_mod, Nat.mod_eq_of_lt hi]]
    show at0 (stretch M x a b) (cellDof M.npc M.ndof M.c2n cell (n * M.ndof + i)) = _
    rw [hdof]
    generalize hnd : cellNode M.npc M.c2n cell n = nd at *
    have hl : M.ndof * nd + i < M.nn * M.ndof := by
      calc M.ndof * nd + i < M.ndof * nd + M.ndof := by omega
        _ = (nd + 1) * M.ndof := by ring
        _ ≤ M.nn * M.ndof := Nat.mul_le_mul_right _ hnode
    have e1 : (M.ndof * nd + i) % M.ndof = i := by rw [Nat.mul_add_mod, Nat.mod_eq_of_lt (by omega)]
    have e2 : (M.ndof * nd + i) / M.ndof = nd := by
      rw [Nat.mul_add_div (by omega), Nat.div_eq_of_lt (by omega), Nat.add_zero]
    have hst : at0 (stretch M x a b) (M.ndof * nd + i) = if i = 1 then b * at0 x (3 * nd + 2) else
        if i = 2 then a * at0 x (3 * nd + 2) else 0 := by
      unfold stretch at0
      rw [List.getElem?_map, List.getElem?_range hl]
      simp only [Option.map_some, Option.getD_some, e1, e2]
    rw [hst, h3]
    have hxv : ∀ j, (numbers M (⟨stretch M x a b, up, c, cp, z, x⟩ : Args ℝ) cell).x n j = at0 x (3 * nd + j) := by
      intro j
      show at0 x (M.dim * cellNode M.npc M.c2n cell n + j) = _
      rw [hnd, h3]
    simp only [hxv, sum_range_succ, sum_range_zero]
    interval_cases i <;> simp

theorem cycle_elastic (j : Nat) (hj : j < 5) : EachCell M fun k cell =>
    elasticTensor M P (after M (localDofs M.dim) (cycleU M x) (cycleC M) z x j) k cell =
      cycleE (if j = 1 ∨ j = 2 then 1 else 0) (if j = 2 ∨ j = 3 then 1 else 0) := by
  intro k hk cell hcell
  have hs : ∀ n : Nat, stateOf M (List.replicate (M.nc * localDofs M.dim) (0 : ℝ)) cell = ⟨0, 0, 0, 0⟩ :=
    fun _ => state_start hJ (us := []) (cs := []) (z := []) (x := []) cell
  interval_cases j
  · rw [elastic_start hJ hk, ht k hk]
    ext i j
    fin_cases i <;> fin_cases j <;> simp [cycleE]
  all_goals
    unfold elasticTensor
    have hst := fun a b up c cp => stretch_strain hM hJ h3 ht hx (z := z) a b up c cp k hk cell hcell
    simp only [after, cycleU, cycleC, List.getD_cons_zero, List.getD_cons_succ, List.replicate_succ]
    rw [hst, hs 0, sub_zero]
    simp

/-- **C76 fails in three dimensions**: a body that is stretched, sheared, released from the stretch and released
from the shear comes back to the state without strain, and the elastic work criterion of the cycle is not zero: it is
minus the volume times the penalised first constant of Lamé.  For every mesh, without any plastic strain. -/
theorem C76_cycle_false (hp : ∀ k, k < M.domains.length → (P k).plastic = false) (hz : z.length = M.nn)
    (hxl : x.length = M.nn * M.dim) {rs : Nat → Run} (hrs : ∀ k, k < 4 → (rs k).Ok M) (mult : ℝ) :
    problemValue M P mult rs 4 (cycleU M x) (cycleC M) z x =
      .ok (-(mult * cellSum M fun k cell => volume M P (after M (localDofs M.dim) (cycleU M x) (cycleC M) z x 0) k cell *
        (penalty M P (after M (localDofs M.dim) (cycleU M x) (cycleC M) z x 0) k cell *
          ((P k).bulk - 2 * (P k).mat.shear / 3)))) ∧
    (EachCell M fun k cell => elasticTensor M P (after M (localDofs M.dim) (cycleU M x) (cycleC M) z x 4) k cell = 0) := by
  have hc := fun j hj => cycle_elastic hM hJ h3 ht hx (z := z) j hj
  have hstr : ∀ a b, (stretch M x a b).length = M.nn * M.ndof := fun a b => by simp [stretch]
  have hS : Steps M (localDofs M.dim) 4 (cycleU M x) (cycleC M) z x := by
    refine ⟨by simp [cycleU], by simp [cycleC], ?_, ?_, hz, hxl⟩
    · intro k hk
      interval_cases k <;> simp [cycleU, hstr]
    · intro k hk
      interval_cases k <;> simp [cycleC]
  have h0 : cycleE 0 0 = 0 := by
    ext i j
    fin_cases i <;> fin_cases j <;> simp [cycleE]
  have hend : EachCell M fun k cell => elasticTensor M P (after M (localDofs M.dim) (cycleU M x) (cycleC M) z x 4) k cell = 0 := by
    intro k hk cell hcell
    have := hc 4 (by omega) k hk cell hcell
    simp only [show ¬(4 = 1 ∨ 4 = 2) by omega, show ¬(4 = 2 ∨ 4 = 3) by omega, if_false, h0] at this
    exact this
  refine ⟨?_, hend⟩
  have hE : energy M P (after M (localDofs M.dim) (cycleU M x) (cycleC M) z x 4) = 0 := by
    unfold energy
    rw [cellSum_congr (g := fun _ _ => 0)]
    · simp [cellSum]
    · intro k hk cell hcell
      rw [hend k hk cell hcell, density_eq]
      simp [deviator, nrm]
  have hv : ∀ j k cell, volume M P (after M (localDofs M.dim) (cycleU M x) (cycleC M) z x j) k cell =
      volume M P (after M (localDofs M.dim) (cycleU M x) (cycleC M) z x 0) k cell := by
    intro j k cell
    cases j <;> rfl
  have hpn : ∀ j k cell, penalty M P (after M (localDofs M.dim) (cycleU M x) (cycleC M) z x j) k cell =
      penalty M P (after M (localDofs M.dim) (cycleU M x) (cycleC M) z x 0) k cell := by
    intro j k cell
    cases j <;> rfl
  have hold : ∀ j k cell, elasticTensor M P (old (after M (localDofs M.dim) (cycleU M x) (cycleC M) z x (j + 1))) k cell =
      elasticTensor M P (after M (localDofs M.dim) (cycleU M x) (cycleC M) z x j) k cell := by
    intro j k cell
    unfold elasticTensor
    rw [strain_old, (old_after j).2]
  have hsl : ∀ a b, slip (cycleE a b) = b - a := by
    intro a b
    simp [slip, cycleE]
    ring
  have htr : ∀ a b, (cycleE a b).trace = a := by
    intro a b
    simp [cycleE, Matrix.trace, Fin.sum_univ_three]
  rw [C76_history_3d hM hJ h3 hp hS hrs, hE, energy_start hJ ht, sub_zero, zero_add, ← mul_neg]
  congr 2
  have hsum : ∀ j, j < 4 → surplus M P (after M (localDofs M.dim) (cycleU M x) (cycleC M) z x (j + 1)) =
      (if j = 0 ∨ j = 2 then -(1 / 2 : ℝ) else 0) * cellSum M fun k cell =>
        volume M P (after M (localDofs M.dim) (cycleU M x) (cycleC M) z x 0) k cell *
        (penalty M P (after M (localDofs M.dim) (cycleU M x) (cycleC M) z x 0) k cell *
          ((P k).bulk - 2 * (P k).mat.shear / 3)) := by
    intro j hj
    have e : ∀ (a : ℝ) (f : Nat → Nat → ℝ), a * cellSum M f = cellSum M fun k cell => a * f k cell := by
      intro a f
      unfold cellSum
      simp only [mul_sum]
    rw [e]
    unfold surplus
    refine cellSum_congr fun k hk cell hcell => ?_
    rw [hv, hpn, hold, hc (j + 1) (by omega) k hk cell hcell, hc j (by omega) k hk cell hcell, hsl, hsl, htr, htr]
    interval_cases j <;> norm_num <;> ring
  rw [sum_range_succ, sum_range_succ, sum_range_succ, sum_range_succ, sum_range_zero, hsum 0 (by omega), hsum 1 (by omega),
    hsum 2 (by omega), hsum 3 (by omega)]
  norm_num
  ring

end Cycle

/-! ## One tetrahedron -/

/-- One tetrahedron with displacements and pressure. -/
def tetraM : FeModel := { Mass.tetra with ndof := 4 }

theorem tetraM_ok : tetraM.Ok :=
  ⟨Mass.tetra_ok.dim, by decide, Mass.tetra_ok.mesh, Mass.tetra_ok.adj, Mass.tetra_ok.graph, Mass.tetra_ok.some_domain,
    Mass.tetra_ok.cells⟩

/-- Unit shear and bulk modulus. -/
noncomputable def tetraP (plastic : Bool) : WorkCrit ℝ where
  mat := { slabJ with d := 3, basis := List.replicate 4 (1 / 4) }
  plastic := plastic
  cubWeight := 1 / 6
  bulk := 1
  pen := id

theorem tetraP_ok (b : Bool) : WOk tetraM fun _ => tetraP b :=
  ⟨.inr rfl, fun _ _ => rfl, fun _ _ => rfl, fun _ _ => by simp [tetraP, tetraM, Mass.tetra]⟩

/-- Loops in order. -/
def oneRun : Run := ⟨fun _ => [0], fun _ _ => [0], fun _ => [[0]]⟩

theorem oneRun_ok : oneRun.Ok tetraM := by
  refine ⟨fun k hk => ?_, fun k j hk _ => ?_, fun k hk => ?_⟩ <;>
    (have hk : k < 1 := hk
     interval_cases k
     exact List.Perm.refl _)

/-- The cycle on a tetrahedron of unit material: the elastic work is -1/18. -/
theorem C76_cycle_tetra : problemValue tetraM (fun _ => tetraP false) 1 (fun _ => oneRun) 4 (cycleU tetraM Mass.tetraX)
    (cycleC tetraM) [1, 1, 1, 1] Mass.tetraX = .ok (-(1 / 18)) := by
  have hd : dom tetraM 0 = [0] := rfl
  rw [(C76_cycle_false tetraM_ok (tetraP_ok false) rfl (fun _ _ => rfl) ?_ (fun _ _ => rfl) rfl (by simp [Mass.tetraX, tetraM, Mass.tetra])
    (fun _ _ => oneRun_ok) 1).1]
  · congr 2
    unfold cellSum
    rw [show tetraM.domains.length = 1 from rfl, sum_range_one, hd, show [0].length = 1 from rfl, sum_range_one,
      show atN [0] 0 = 0 from rfl]
    have hv : volume tetraM (fun _ => tetraP false) (after tetraM (localDofs tetraM.dim) (cycleU tetraM Mass.tetraX)
        (cycleC tetraM) [1, 1, 1, 1] Mass.tetraX 0) 0 0 = 1 / 6 := by
      norm_num [volume, numbers, cellData, after, tetraM, Mass.tetra, Mass.tetraX, detForm, detj3, edge, cellNode, FeModel.npc, at0,
        atN, plainMk, plainOf, tetraP]
    have hp : penalty tetraM (fun _ => tetraP false) (after tetraM (localDofs tetraM.dim) (cycleU tetraM Mass.tetraX)
        (cycleC tetraM) [1, 1, 1, 1] Mass.tetraX 0) 0 0 = 1 := by
      norm_num [penalty, numbers, cellData, after, tetraM, Mass.tetra, meanDensity, cellNode, FeModel.npc, at0,
        atN, plainMk, plainOf, tetraP, sum_range_succ]
    dsimp only
    rw [hv, hp]
    norm_num [tetraP, slabJ]
  · intro k hk cell hc
    have hk : k < 1 := hk
    interval_cases k
    rw [hd] at hc
    simp at hc
    subst hc
    exact Mass.tetra_det 0 (by decide)

end Plato.PWork
