import Verif.J2.Track
import Mathlib.Analysis.Calculus.TangentCone.Real

/-!
# C65: the derivative by the local state among the states with the same cells in plastic flow
-/

namespace Plato.J2
open Finset Plato Plato.Mech

/-- Local states in which the same cells flow as in `c`. -/
def SameFlow (nc nl : Nat) (c : Fin (nc * nl) → ℝ) : Set (Fin (nc * nl) → ℝ) :=
  {y | ∀ cell, cell < nc → (0 < coord (nc * nl) (cell * nl + 1) y ↔ 0 < coord (nc * nl) (cell * nl + 1) c)}

theorem sameFlow_self (nc nl : Nat) (c : Fin (nc * nl) → ℝ) : c ∈ SameFlow nc nl c := fun _ _ => Iff.rfl

theorem sameFlow_convex (nc nl : Nat) (c : Fin (nc * nl) → ℝ) : Convex ℝ (SameFlow nc nl c) := by
  intro x hx y hy a b ha hb hab cell hcell
  rw [map_add, map_smul, map_smul, smul_eq_mul, smul_eq_mul]
  by_cases h : 0 < coord (nc * nl) (cell * nl + 1) c
  · have h1 := (hx cell hcell).2 h
    have h2 := (hy cell hcell).2 h
    refine iff_of_true ?_ h
    rcases eq_or_lt_of_le ha with h0 | h0
    · have : b = 1 := by linarith
      rw [← h0, this]
      linarith
    · have := mul_pos h0 h1
      have := mul_nonneg hb h2.le
      linarith
  · have h1 : ¬ 0 < coord (nc * nl) (cell * nl + 1) x := fun h' => h ((hx cell hcell).1 h')
    have h2 : ¬ 0 < coord (nc * nl) (cell * nl + 1) y := fun h' => h ((hy cell hcell).1 h')
    refine iff_of_false ?_ h
    have := mul_nonpos_of_nonneg_of_nonpos ha (not_lt.1 h1)
    have := mul_nonpos_of_nonneg_of_nonpos hb (not_lt.1 h2)
    linarith

theorem sameFlow_unique {nc nl : Nat} (hnl : 1 < nl) (c : Fin (nc * nl) → ℝ) :
    UniqueDiffWithinAt ℝ (SameFlow nc nl c) c := by
  refine uniqueDiffWithinAt_convex (sameFlow_convex nc nl c) ?_ (subset_closure (sameFlow_self nc nl c))
  let U : Set (Fin (nc * nl) → ℝ) := {y | ∀ cell ∈ range nc, if 0 < coord (nc * nl) (cell * nl + 1) c then
    0 < coord (nc * nl) (cell * nl + 1) y else coord (nc * nl) (cell * nl + 1) y < 0}
  have hU : IsOpen U := by
    have : U = ⋂ cell ∈ range nc, {y | if 0 < coord (nc * nl) (cell * nl + 1) c then
        0 < coord (nc * nl) (cell * nl + 1) y else coord (nc * nl) (cell * nl + 1) y < 0} := by
      ext y
      simp [U]
    rw [this]
    refine isOpen_biInter_finset fun cell _ => ?_
    split_ifs
    · exact isOpen_lt continuous_const (coord (nc * nl) (cell * nl + 1)).continuous
    · exact isOpen_lt (coord (nc * nl) (cell * nl + 1)).continuous continuous_const
  have hsub : U ⊆ SameFlow nc nl c := by
    intro y hy cell hcell
    have := hy cell (mem_range.2 hcell)
    split_ifs at this with h
    · exact iff_of_true this h
    · exact iff_of_false (not_lt.2 this.le) h
  refine ⟨fun q => if 0 < c q then 1 else -1, interior_maximal hsub hU ?_⟩
  intro cell hcell
  have hlt : cell * nl + 1 < nc * nl := local_lt (mem_range.1 hcell) hnl
  unfold coord
  rw [dif_pos hlt]
  show if 0 < c ⟨_, hlt⟩ then 0 < (if 0 < c ⟨_, hlt⟩ then (1 : ℝ) else -1) else (if 0 < c ⟨_, hlt⟩ then (1 : ℝ) else -1) < 0
  split_ifs <;> norm_num

section
variable {M : FeModel} (hM : M.Ok) (hB : Blocks M) {P : Nat → J2 ℝ} (hJ : JOk M P) {pE pP : Nat → Fad → Fad}
  {A : Args ℝ} (hA : A.Ok M (localDofs M.dim)) {ord : Nat → List Nat} (ho : OrdOk M ord)
  {sch : Nat → Nat → List Nat} (hs : LSched M sch)
include hM hB hJ hA ho hs

/-- **C65**, derivative by the local state: in all cells, also those without flow, the matrix is the derivative among
the local states with the same cells in plastic flow. -/
theorem C65_gradient_c_active {c : Fin (M.nc * localDofs M.dim) → ℝ}
    {ordR : (Fin (M.nc * localDofs M.dim) → ℝ) → Nat → List Nat} (hoR : ∀ y, OrdOk M (ordR y))
    {schR : (Fin (M.nc * localDofs M.dim) → ℝ) → Nat → Nat → List Nat} (hsR : ∀ y, LSched M (schR y)) :
    ∃ (r : (Fin (M.nc * localDofs M.dim) → ℝ) → V2 ℝ) (J : V3 ℝ),
      (∀ y, j2Residual M P (ordR y) (schR y) { A with c := List.ofFn y } = .ok (r y)) ∧
      localGradient M (localDofs M.dim) (localDofs M.dim) ⟨constOf, constOf, seedOf, constOf, constOf, constOf⟩
        (residualF M P pE pP ord) sch { A with c := List.ofFn c } = .ok J ∧
      EachCell M fun k cell => (0 < coord (M.nc * localDofs M.dim) (cell * localDofs M.dim + 1) c →
          Smooth (P k) (pE k) (pP k) (numbers M { A with c := List.ofFn c } cell)) →
        ∀ i, i < localDofs M.dim → HasFDerivWithinAt (fun y => (r y).e cell i) (∑ l ∈ range (localDofs M.dim),
          J.e cell i l • coord (M.nc * localDofs M.dim) (cell * localDofs M.dim + l)) (SameFlow M.nc (localDofs M.dim) c) c := by
  obtain ⟨r, J, h1, h2, h3⟩ := C65_gradient_c_partial (pE := pE) (pP := pP) hM hB hJ hA ho hs (c := c) hoR hsR
  have hA' : ({ A with c := List.ofFn c } : Args ℝ).Ok M (localDofs M.dim) :=
    ⟨hA.u, hA.up, List.length_ofFn, hA.cp, hA.z, hA.x⟩
  obtain ⟨J', h2', hel⟩ := C65_gradient_c_elastic (pE := pE) (pP := pP) hM hB hJ hA' ho hs
  have : J' = J := by
    have := h2'.symm.trans h2
    injection this
  subst this
  refine ⟨r, J', h1, h2, fun k hk cell hcell hS i hi => ?_⟩
  have hlt := dom_lt hM hk hcell
  have hle := stressTerms_eq hJ.dim
  by_cases hp : 0 < coord (M.nc * localDofs M.dim) (cell * localDofs M.dim + 1) c
  · exact (h3 k hk cell hcell hp.ne' hS i hi).hasFDerivWithinAt
  have hid := hel k hk cell hcell (by rw [at0_ofFn]; exact not_lt.1 hp)
  have es : (∑ l ∈ range (localDofs M.dim), J'.e cell i l • coord (M.nc * localDofs M.dim) (cell * localDofs M.dim + l)) =
      coord (M.nc * localDofs M.dim) (cell * localDofs M.dim + i) := by
    rw [sum_eq_single i (fun b hb hbi => by rw [hid i b hi (mem_range.1 hb), if_neg (Ne.symm hbi), zero_smul])
      (fun h => absurd (mem_range.2 hi) h), hid i i hi hi, if_pos rfl, one_smul]
  rw [es]
  have hval : ∀ y, ¬ 0 < coord (M.nc * localDofs M.dim) (cell * localDofs M.dim + 1) y → (r y).e cell i =
      coord (M.nc * localDofs M.dim) (cell * localDofs M.dim + i) y -
        (if i = 1 then 0 else at0 A.cp (cell * localDofs M.dim + i)) := by
    intro y hy
    obtain ⟨v, hv1, hv2⟩ := C64_residual hM hB localDofs_pos (hsR y)
      (residualEv_rowWise hJ (hoR y) (fun a : ℝ => |a|) Real.sqrt fun f => decide (0 < f))
      (A := { A with c := List.ofFn y }) ⟨hA.u, hA.up, List.length_ofFn, hA.cp, hA.z, hA.x⟩
    have : v = r y := by
      have := hv1.symm.trans (h1 y)
      injection this
    subst this
    rw [hv2.2.1 k hk cell hcell i hi]
    have e : ∀ j, (cellData M (localDofs M.dim) plainMk { A with c := List.ofFn y } cell).c j =
      coord (M.nc * localDofs M.dim) (cell * localDofs M.dim + j) y := fun j => at0_ofFn y _
    unfold J2.evalForm
    rw [e 1, decide_eq_false hy]
    simp only [Bool.false_eq_true, if_false, e]
    split_ifs with h
    · rw [h, sub_zero]
    · rfl
  have hd : HasFDerivAt (fun y => coord (M.nc * localDofs M.dim) (cell * localDofs M.dim + i) y -
      (if i = 1 then 0 else at0 A.cp (cell * localDofs M.dim + i)))
      (coord (M.nc * localDofs M.dim) (cell * localDofs M.dim + i)) c :=
    (coord (M.nc * localDofs M.dim) (cell * localDofs M.dim + i)).hasFDerivAt.sub_const _
  refine hd.hasFDerivWithinAt.congr (fun y hy => hval y fun h => hp ((hy cell hlt).1 h)) (hval c hp)

end
end Plato.J2
