import Verif.Plast.Output
import Verif.Plast.Balance
import Verif.J2.Example

/-!
# C82: Cauchy stress and principal stresses
-/

namespace Plato.Plast
open Finset Plato Plato.Mech Plato.Thermal Plato.J2 Plato.Dyn Plato.Tensor
open Plato.PWork (hooke)

/-! ## Tensors -/

theorem hooke_shift (K mu a : ℝ) (E : J2.Tensor) : hooke K mu (E + a • 1) = hooke K mu E + (3 * K * a) • (1 : J2.Tensor) := by
  ext i j
  simp only [hooke, deviator, Matrix.sub_apply, Matrix.add_apply, Matrix.smul_apply, Matrix.trace, Fin.sum_univ_three,
    Matrix.diag_apply, Matrix.one_apply, smul_eq_mul]
  fin_cases i <;> fin_cases j <;> simp <;> ring

theorem voigt2_block (σ : Nat → ℝ) : voigt2 σ false = block (stressTensor 2 σ) := by
  ext i j
  fin_cases i <;> fin_cases j <;> simp [voigt2, block, stressTensor]

theorem voigt3_tensor (σ : Nat → ℝ) : voigt3 σ false = stressTensor 3 σ := by
  ext i j
  fin_cases i <;> fin_cases j <;> simp [voigt3, stressTensor]

section
variable {P : Plast ℝ} (hd : P.d = 2 ∨ P.d = 3) (U C Z : Nat → ℝ) (X : Nat → Nat → ℝ)
include hd

theorem plain_elastic : strainTensor P.d ((plainMat P.mat).elasticOf (P.mat.total U X) U C) =
    P.strainEl U C X + P.mat.therm U • (1 : J2.Tensor) := by
  have h0 : (plainMat P.mat).therm U = 0 := by
    unfold J2.therm plainMat
    split <;> simp
  have e : ∀ t, (plainMat P.mat).elasticOf (P.mat.total U X) U C t =
      P.mat.elasticOf (P.mat.total U X) U C t + if isNormal P.d t then P.mat.therm U else 0 := by
    intro t
    unfold J2.elasticOf
    rw [h0, ite_self]
    ring
  rw [(strainTensor_inj hd).2 fun t _ => e t]
  unfold Plast.strainEl
  rw [← elastic_tensor hd U C X]
  unfold strainTensor
  ext i j
  rcases hd with h | h <;> rw [h] <;> simp only [show P.mat.d = _ from h] <;> fin_cases i <;> fin_cases j <;> simp [isNormal]

/-- The stress of the principal stresses in tensors. -/
theorem plain_tensor : stressTensor P.d (P.plainStress U C Z X) = P.stressEl U C Z X +
    (P.excess U C Z X + (if P.d = 2 then 3 * (P.penOf Z * P.bulk) else 2 * (P.penOf Z * P.bulk) +
      2 * (P.penOf Z * P.mat.shear) / 3) * P.mat.therm U) • (1 : J2.Tensor) := by
  unfold Plast.plainStress
  rw [cauchy_tensor hd, plain_elastic hd, hooke_shift, add_assoc, ← add_smul]
  unfold Plast.stressEl
  congr 2
  unfold Plast.excess
  by_cases h2 : P.d = 2
  · rw [if_pos h2, if_pos h2, if_pos h2]; ring
  · have e := plain_elastic hd U C X
    have e12 := congrFun (congrFun e 1) 2
    have e22 := congrFun (congrFun e 2) 2
    unfold strainTensor at e12 e22
    rw [if_neg h2] at e12 e22
    simp at e12 e22
    rw [if_neg h2, if_neg h2, if_neg h2, e22]
    rw [show (plainMat P.mat).elasticOf (P.mat.total U X) U C 3 = 2 * P.strainEl U C X 1 2 by linarith]
    ring

end

theorem block_shift (A : J2.Tensor) (a : ℝ) : block (A + a • 1) = block A + a • (1 : Matrix (Fin 2) (Fin 2) ℝ) := by
  ext i j
  fin_cases i <;> fin_cases j <;> simp [block]

theorem isEigen_shift {n : Nat} (A : Matrix (Fin n) (Fin n) ℝ) (a l : ℝ) : IsEigen (A + a • 1) (l + a) ↔ IsEigen A l := by
  unfold IsEigen
  refine exists_congr fun v => and_congr_right fun _ => ?_
  rw [Matrix.add_mulVec, Matrix.smul_mulVec, Matrix.one_mulVec, add_smul, add_left_inj]

section
variable {P : Plast ℝ} (hd : P.d = 2 ∨ P.d = 3) (hB : P.mat.basis.length = P.d + 1) {cells : List Nat}
  {global locl node control : V2 ℝ} {config : V3 ℝ} (hw : GWs P cells.length global locl node control config)
  (hL : ∀ L ∈ P.bodyLoads, L.Ok P.d P.ndof cells) {sched : Nat → List Nat}
  (hs : ∀ k, IsSchedule (sched k) cells.length) {order : List Nat} (ho : IsSchedule order cells.length)
  (hn : cells ≠ []) {result : V2 ℝ} (hr0 : cells.length ≤ result.d0) (hr1 : (P.d + 1) * P.ndof ≤ result.d1)
  {nelems : Nat} {ord : List Nat} (hord : IsSchedule ord cells.length) (hnd : cells.Nodup)
  (hlt : ∀ g ∈ cells, g < nelems)
include hd hB hw hL hs ho hn hr0 hr1 hord hnd hlt

/-- **C82**, Cauchy stress in the plane: the entry shows Hooke's law on every cell. -/
theorem C82_cauchy_plane (h2 : P.d = 2) {plottable : List String} (pow23 : ℝ → ℝ) (init : Nat → Nat → Nat)
    (hp : "cauchy stress" ∈ plottable) {entry : Option (V2 ℝ)} (he : ∀ v, entry = some v → v.d0 = nelems ∧ v.d1 = 4) :
    (P.evaluateOut plottable pow23 init sched order cells global locl node control config result).Sat fun r =>
      Stored r.2 nelems cells ord "cauchy stress" entry fun data => ∀ c, c < cells.length →
        stressTensor 2 (data.e (atN cells c)) = P.stressEl (global.e c) (locl.e c) (control.e c) (config.e c) := by
  refine (C82_output_partial hd hB hw hL hs ho hn hr0 hr1 hord hnd hlt pow23 init (name := "cauchy stress")
    (by cases P.mat.thermal <;> decide) hp (entry := entry) (by rw [h2]; exact he)).mono ?_
  rintro r ⟨view, v1, v2, v3⟩
  refine ⟨view, v1, v2, v3.mono ?_⟩
  rintro data ⟨-, -, h⟩ c hc
  have := (h c hc).2.2.2.2.2.2.1 rfl
  unfold Plast.excess at this
  rwa [if_pos h2, h2, zero_smul, add_zero] at this

/-- **C82 is false for the Cauchy stress in three dimensions**: on a cell the entry shows Hooke's law if and only
if the material has no lateral contraction or twice the shear strain yz happens to equal the normal strain zz. -/
theorem C82_cauchy_space_false (h3 : P.d = 3) {plottable : List String} (pow23 : ℝ → ℝ) (init : Nat → Nat → Nat)
    (hp : "cauchy stress" ∈ plottable) {entry : Option (V2 ℝ)} (he : ∀ v, entry = some v → v.d0 = nelems ∧ v.d1 = 6) :
    (P.evaluateOut plottable pow23 init sched order cells global locl node control config result).Sat fun r =>
      Stored r.2 nelems cells ord "cauchy stress" entry fun data => ∀ c, c < cells.length →
        (stressTensor 3 (data.e (atN cells c)) = P.stressEl (global.e c) (locl.e c) (control.e c) (config.e c) ↔
          P.penOf (control.e c) = 0 ∨ 3 * P.bulk = 2 * P.mat.shear ∨
            2 * P.strainEl (global.e c) (locl.e c) (config.e c) 1 2 =
              P.strainEl (global.e c) (locl.e c) (config.e c) 2 2) := by
  refine (C82_output_partial hd hB hw hL hs ho hn hr0 hr1 hord hnd hlt pow23 init (name := "cauchy stress")
    (by cases P.mat.thermal <;> decide) hp (entry := entry) (by rw [h3]; exact he)).mono ?_
  rintro r ⟨view, v1, v2, v3⟩
  refine ⟨view, v1, v2, v3.mono ?_⟩
  rintro data ⟨-, -, h⟩ c hc
  have := (h c hc).2.2.2.2.2.2.1 rfl
  rw [h3] at this
  rw [this, add_eq_left]
  unfold Plast.excess
  rw [if_neg (by omega), smul_eq_zero, or_iff_left one_ne_zero, mul_eq_zero, mul_eq_zero, or_assoc, sub_eq_zero, sub_eq_zero]
  refine or_congr_right (or_congr_left ⟨fun h => by linarith, fun h => by linarith⟩)

/-- **C82**, principal stresses in the plane, shear stress not negative: the values are the principal stresses of
the stress to which the thermal strain adds three times the bulk modulus times the thermal strain; without
temperature they are those of the stress.  Missing: negative shear (`C82_principal_shear_false`), temperature
(`C82_principal_thermal_false`), the principal stress out of the plane, which is not stored. -/
theorem C82_principal_plane_partial (h2 : P.d = 2) {plottable : List String} (pow23 : ℝ → ℝ) (init : Nat → Nat → Nat)
    (hp : "principal stresses" ∈ plottable) {entry : Option (V2 ℝ)} (he : ∀ v, entry = some v → v.d0 = nelems ∧ v.d1 = 2) :
    (P.evaluateOut plottable pow23 init sched order cells global locl node control config result).Sat fun r =>
      Stored r.2 nelems cells ord "principal stresses" entry fun data => ∀ c, c < cells.length →
        0 ≤ P.stressEl (global.e c) (locl.e c) (control.e c) (config.e c) 0 1 →
        ∀ l, IsEigen (block (P.stressEl (global.e c) (locl.e c) (control.e c) (config.e c))) l ↔
          l + 3 * (P.penOf (control.e c) * P.bulk) * P.mat.therm (global.e c) = data.e (atN cells c) 0 ∨
          l + 3 * (P.penOf (control.e c) * P.bulk) * P.mat.therm (global.e c) = data.e (atN cells c) 1 := by
  refine (principal_output hd hB hw hL hs ho hn hr0 hr1 hord hnd hlt pow23 init hp (entry := entry)
    (by rw [h2]; exact he)).mono ?_
  rintro r ⟨view, v1, v2, v3⟩
  refine ⟨view, v1, v2, v3.mono ?_⟩
  rintro data ⟨-, -, h⟩ c hc hsh l
  have e := plain_tensor hd (global.e c) (locl.e c) (control.e c) (config.e c)
  have hx : P.excess (global.e c) (locl.e c) (control.e c) (config.e c) = 0 := if_pos h2
  rw [hx, zero_add, if_pos h2, h2] at e
  have e2 := congrFun (congrFun e 0) 1
  have hs2 : P.plainStress (global.e c) (locl.e c) (control.e c) (config.e c) 2 =
      P.stressEl (global.e c) (locl.e c) (control.e c) (config.e c) 0 1 := by
    simpa [stressTensor] using e2
  obtain ⟨t1, t2⟩ := ((h c hc).1 h2).1 (by rw [hs2]; exact hsh)
  rw [← isEigen_shift _ (3 * (P.penOf (control.e c) * P.bulk) * P.mat.therm (global.e c)), ← block_shift, ← e, ← voigt2_block]
  exact isEigen_two t1 t2 _

/-- **C82 is false for principal stresses in the plane when there is thermal strain**: on every cell with thermal
strain, penalised bulk modulus and shear stress not negative, the values are not the principal stresses. -/
theorem C82_principal_thermal_false (h2 : P.d = 2) {plottable : List String} (pow23 : ℝ → ℝ) (init : Nat → Nat → Nat)
    (hp : "principal stresses" ∈ plottable) {entry : Option (V2 ℝ)} (he : ∀ v, entry = some v → v.d0 = nelems ∧ v.d1 = 2) :
    (P.evaluateOut plottable pow23 init sched order cells global locl node control config result).Sat fun r =>
      Stored r.2 nelems cells ord "principal stresses" entry fun data => ∀ c, c < cells.length →
        0 ≤ P.stressEl (global.e c) (locl.e c) (control.e c) (config.e c) 0 1 →
        P.penOf (control.e c) * P.bulk * P.mat.therm (global.e c) ≠ 0 →
        ¬ ∀ l, IsEigen (block (P.stressEl (global.e c) (locl.e c) (control.e c) (config.e c))) l ↔
          l = data.e (atN cells c) 0 ∨ l = data.e (atN cells c) 1 := by
  refine (C82_principal_plane_partial hd hB hw hL hs ho hn hr0 hr1 hord hnd hlt h2 pow23 init hp he).mono ?_
  rintro r ⟨view, v1, v2, v3⟩
  refine ⟨view, v1, v2, v3.mono ?_⟩
  rintro data h c hc hsh hne hall
  have h1 := h c hc hsh
  set s := 3 * (P.penOf (control.e c) * P.bulk) * P.mat.therm (global.e c) with hsd
  have hs0 : s ≠ 0 := by
    rw [hsd, mul_assoc]
    simpa [mul_assoc] using hne
  set a := data.e (atN cells c) 0
  set b := data.e (atN cells c) 1
  have key : ∀ l, (l + s = a ∨ l + s = b) ↔ (l = a ∨ l = b) := fun l => (h1 l).symm.trans (hall l)
  rcases (key a).2 (.inl rfl) with h | h
  · exact hs0 (by linarith)
  · rcases (key b).2 (.inr rfl) with h' | h'
    · exact hs0 (by linarith)
    · exact hs0 (by linarith)

/-- **C82 is false for principal stresses in the plane when the shear stress is negative**, without temperature:
neither value is a principal stress. -/
theorem C82_principal_shear_false (h2 : P.d = 2) {plottable : List String} (pow23 : ℝ → ℝ) (init : Nat → Nat → Nat)
    (hp : "principal stresses" ∈ plottable) {entry : Option (V2 ℝ)} (he : ∀ v, entry = some v → v.d0 = nelems ∧ v.d1 = 2) :
    (P.evaluateOut plottable pow23 init sched order cells global locl node control config result).Sat fun r =>
      Stored r.2 nelems cells ord "principal stresses" entry fun data => ∀ c, c < cells.length →
        P.mat.therm (global.e c) = 0 → P.stressEl (global.e c) (locl.e c) (control.e c) (config.e c) 0 1 < 0 →
        ∀ i, i < 2 → ¬ IsEigen (block (P.stressEl (global.e c) (locl.e c) (control.e c) (config.e c))) (data.e (atN cells c) i) := by
  refine (principal_output hd hB hw hL hs ho hn hr0 hr1 hord hnd hlt pow23 init hp (entry := entry)
    (by rw [h2]; exact he)).mono ?_
  rintro r ⟨view, v1, v2, v3⟩
  refine ⟨view, v1, v2, v3.mono ?_⟩
  rintro data ⟨-, -, h⟩ c hc h0 hsh i hi
  have e := plain_tensor hd (global.e c) (locl.e c) (control.e c) (config.e c)
  have hx : P.excess (global.e c) (locl.e c) (control.e c) (config.e c) = 0 := if_pos h2
  rw [hx, zero_add, h0, mul_zero, zero_smul, add_zero, h2] at e
  have hs2 : P.plainStress (global.e c) (locl.e c) (control.e c) (config.e c) 2 =
      P.stressEl (global.e c) (locl.e c) (control.e c) (config.e c) 0 1 := by
    simpa [stressTensor] using congrFun (congrFun e 0) 1
  obtain ⟨t0, t1⟩ := ((h c hc).1 h2).2 (by rw [hs2]; exact hsh.le)
  rw [← e, ← voigt2_block]
  obtain ⟨q, eq, n0, n1⟩ := C36_eigenvalues2_false (cell := 0)
    (voigt := ⟨1, 3, fun _ => P.plainStress (global.e c) (locl.e c) (control.e c) (config.e c)⟩)
    (eig := ⟨1, 2, fun _ _ => 0⟩) (by simp) (by simp) (by simp) (by simp) false (by dsimp only; rw [hs2]; exact hsh)
  obtain ⟨q', eq', -, k⟩ := eigenvalues2_eq (cell := 0)
    (voigt := ⟨1, 3, fun _ => P.plainStress (global.e c) (locl.e c) (control.e c) (config.e c)⟩)
    (eig := ⟨1, 2, fun _ _ => 0⟩) (by simp) (by simp) (by simp) (by simp) false
  rw [eq] at eq'
  cases eq'
  obtain ⟨k0, k1⟩ := k (by dsimp only; rw [hs2]; exact hsh.le)
  dsimp only at n0 n1 k0 k1
  interval_cases i
  · rw [t0, ← k0]; exact n0
  · rw [t1, ← k1]; exact n1

/-- **C82**, principal stresses in three dimensions without thermal strain and where the Cauchy stress is right:
the values have the trace of the stress, each is close to a principal stress and close to each principal stress is
one of them. -/
theorem C82_principal_space_partial (h3 : P.d = 3) {plottable : List String} (pow23 : ℝ → ℝ) (init : Nat → Nat → Nat)
    (hp : "principal stresses" ∈ plottable) {entry : Option (V2 ℝ)} (he : ∀ v, entry = some v → v.d0 = nelems ∧ v.d1 = 3) :
    (P.evaluateOut plottable pow23 init sched order cells global locl node control config result).Sat fun r =>
      Stored r.2 nelems cells ord "principal stresses" entry fun data => ∀ c, c < cells.length →
        P.mat.therm (global.e c) = 0 → P.excess (global.e c) (locl.e c) (control.e c) (config.e c) = 0 →
        ∃ err : ℝ, (err ≤ (2 / 3) ^ 6 * offDiag (P.stressEl (global.e c) (locl.e c) (control.e c) (config.e c)) ∨
            err ≤ 3 / 10 ^ 30) ∧
          ∑ i ∈ range 3, data.e (atN cells c) i = (P.stressEl (global.e c) (locl.e c) (control.e c) (config.e c)).trace ∧
          (∀ i, i < 3 → ∃ l, IsEigen (P.stressEl (global.e c) (locl.e c) (control.e c) (config.e c)) l ∧
            (data.e (atN cells c) i - l) ^ 2 ≤ err) ∧
          ∀ l, IsEigen (P.stressEl (global.e c) (locl.e c) (control.e c) (config.e c)) l →
            ∃ i, i < 3 ∧ (data.e (atN cells c) i - l) ^ 2 ≤ 2 * err := by
  refine (principal_output hd hB hw hL hs ho hn hr0 hr1 hord hnd hlt pow23 init hp (entry := entry)
    (by rw [h3]; exact he)).mono ?_
  rintro r ⟨view, v1, v2, v3⟩
  refine ⟨view, v1, v2, v3.mono ?_⟩
  rintro data ⟨-, -, h⟩ c hc h0 hx
  have e := plain_tensor hd (global.e c) (locl.e c) (control.e c) (config.e c)
  rw [hx, zero_add, h0, mul_zero, zero_smul, add_zero, h3, ← voigt3_tensor] at e
  rw [← e]
  exact (h c hc).2 h3

/-- **C82 is false for principal stresses in three dimensions when there is thermal strain**: on a cell that
expands freely there is no stress, but the three values add up to a nonzero number. -/
theorem C82_principal_expansion_false (h3 : P.d = 3) {plottable : List String} (pow23 : ℝ → ℝ) (init : Nat → Nat → Nat)
    (hp : "principal stresses" ∈ plottable) {entry : Option (V2 ℝ)} (he : ∀ v, entry = some v → v.d0 = nelems ∧ v.d1 = 3) :
    (P.evaluateOut plottable pow23 init sched order cells global locl node control config result).Sat fun r =>
      Stored r.2 nelems cells ord "principal stresses" entry fun data => ∀ c, c < cells.length →
        P.strainEl (global.e c) (locl.e c) (config.e c) = 0 →
        P.stressEl (global.e c) (locl.e c) (control.e c) (config.e c) = 0 ∧
        ∑ i ∈ range 3, data.e (atN cells c) i =
          P.penOf (control.e c) * (6 * P.bulk + 2 * P.mat.shear) * P.mat.therm (global.e c) := by
  refine (principal_output hd hB hw hL hs ho hn hr0 hr1 hord hnd hlt pow23 init hp (entry := entry)
    (by rw [h3]; exact he)).mono ?_
  rintro r ⟨view, v1, v2, v3⟩
  refine ⟨view, v1, v2, v3.mono ?_⟩
  rintro data ⟨-, -, h⟩ c hc h0
  have hσ : P.stressEl (global.e c) (locl.e c) (control.e c) (config.e c) = 0 := by
    unfold Plast.stressEl
    rw [h0]
    simp [hooke, deviator]
  refine ⟨hσ, ?_⟩
  have e := plain_tensor hd (global.e c) (locl.e c) (control.e c) (config.e c)
  have hx : P.excess (global.e c) (locl.e c) (control.e c) (config.e c) = 0 := by
    unfold Plast.excess
    rw [h0]
    simp
  rw [hσ, hx, zero_add, zero_add, if_neg (by omega), h3, ← voigt3_tensor] at e
  obtain ⟨err, -, ht, -⟩ := (h c hc).2 h3
  rw [ht, e]
  simp [Matrix.trace, Fin.sum_univ_three]
  ring

end

/-! ## Concrete cases -/

/-- A material with penalty one and bulk modulus two. -/
noncomputable def showP (d : Nat) (thermal : Bool) : Plast ℝ where
  mat := { slabJ with d := d, thermal := thermal, basis := List.replicate (d + 1) (1 / (d + 1)), alpha := 1 }
  cubWeight := 1
  bulk := 2
  kappa := 1
  cond := 1
  pen := fun _ => 1
  bodyLoads := []
  load := 0

/-- Coordinates of the corner of the unit cube. -/
def cornerX : V3 ℝ := ⟨1, 4, 3, fun _ n k => if n = k + 1 then 1 else 0⟩

/-- Coordinates of the corner of the unit square. -/
def cornerX2 : V3 ℝ := ⟨1, 3, 2, fun _ n k => if n = k + 1 then 1 else 0⟩

/-- Free expansion of the corner of the cube: displacement equal to the coordinates, temperature one. -/
def freeU : V2 ℝ := ⟨1, 20, fun _ l => if l % 5 = 3 then 1 else if l / 5 = l % 5 + 1 then 1 else 0⟩

/-- Simple shear of the corner of the square by `g`: the third node moves in the first direction. -/
def shearU (g : ℝ) : V2 ℝ := ⟨1, 9, fun _ l => if l = 6 then g else 0⟩

theorem seq_one : IsSchedule [0] 1 := by unfold IsSchedule; decide

theorem showP_pen (d : Nat) (t : Bool) (Z : Nat → ℝ) : (showP d t).penOf Z = 1 := rfl

/-- In free expansion of a body with temperature the principal stresses add up to 14, though there is no stress. -/
example (pow23 : ℝ → ℝ) (init : Nat → Nat → Nat) :
    ((showP 3 true).evaluateOut ["principal stresses"] pow23 init (fun _ => [0]) [0] [0] freeU ⟨1, 14, fun _ _ => 0⟩
      ⟨1, 12, fun _ _ => 0⟩ ⟨1, 4, fun _ _ => 1⟩ cornerX ⟨1, 20, fun _ _ => 0⟩).Sat fun r =>
      Stored r.2 1 [0] [0] "principal stresses" none fun data =>
        (showP 3 true).stressEl (freeU.e 0) (fun _ => 0) (fun _ => 1) (cornerX.e 0) = 0 ∧
        ∑ i ∈ range 3, data.e 0 i = 14 := by
  have hdet : detForm 3 (cornerX.e 0) ≠ 0 := by simp [detForm, cornerX, edge, detj3]
  have hsm := smallStrain_affine (d := 3) (ndof := 5) (.inr rfl) hdet (U := freeU.e 0) (b := fun _ => 0)
    (A := fun i j => if i = j then 1 else 0) (by
      intro n i hn hi
      simp only [sum_range_succ, sum_range_zero, freeU, cornerX]
      interval_cases n <;> interval_cases i <;> simp)
  have hth : (showP 3 true).mat.therm (freeU.e 0) = 1 := by
    unfold J2.therm J2.temp
    simp [showP, slabJ, J2.ndof, freeU, sum_range_succ, at0, List.replicate]
    norm_num
  have h0 : (showP 3 true).strainEl (freeU.e 0) (fun _ => 0) (cornerX.e 0) = 0 := by
    unfold Plast.strainEl J2.mechStrain
    rw [hth]
    ext i j
    rw [Matrix.sub_apply, Matrix.sub_apply]
    rw [show smallStrain (showP 3 true).mat.d (showP 3 true).mat.ndof (freeU.e 0) (cornerX.e 0) i j =
      smallStrain 3 5 (freeU.e 0) (cornerX.e 0) i j from rfl, hsm i j]
    fin_cases i <;> fin_cases j <;> simp [point, strainTensor, showP]
  refine (C82_principal_expansion_false (P := showP 3 true) (.inr rfl) (by simp [showP]) (cells := [0])
    ⟨rfl, le_rfl, rfl, rfl, rfl, le_rfl, rfl, le_rfl, rfl, rfl, rfl⟩ (fun L hL => by simp [showP] at hL)
    (fun _ => seq_one) seq_one (by simp) le_rfl le_rfl (nelems := 1) seq_one (by simp) (by simp) rfl pow23 init
    (List.mem_singleton.2 rfl) (entry := none) (by simp)).mono ?_
  rintro r ⟨view, v1, v2, v3⟩
  refine ⟨view, v1, v2, v3.mono fun data h => ?_⟩
  obtain ⟨k1, k2⟩ := h 0 (by simp) h0
  refine ⟨k1, ?_⟩
  have : ∑ i ∈ range 3, data.e 0 i = _ := k2
  rw [this, showP_pen, show (showP 3 true).mat.therm (freeU.e 0) = 1 from hth]
  simp [showP, slabJ]
  norm_num

/-- Stress in simple shear. -/
theorem shear_stress (g : ℝ) : (showP 2 false).stressEl ((shearU g).e 0) (fun _ => 0) (fun _ => 1) (cornerX2.e 0) =
    !![0, g, 0; g, 0, 0; 0, 0, 0] := by
  have hdet : detForm 2 (cornerX2.e 0) ≠ 0 := by simp [detForm, cornerX2, edge]
  have hsm := smallStrain_affine (d := 2) (ndof := 3) (.inl rfl) hdet (U := (shearU g).e 0) (b := fun _ => 0)
    (A := fun i j => if i = 0 ∧ j = 1 then g else 0) (by
      intro n i hn hi
      simp only [sum_range_succ, sum_range_zero, shearU, cornerX2]
      interval_cases n <;> interval_cases i <;> simp)
  have hE : (showP 2 false).strainEl ((shearU g).e 0) (fun _ => 0) (cornerX2.e 0) = !![0, g / 2, 0; g / 2, 0, 0; 0, 0, 0] := by
    unfold Plast.strainEl J2.mechStrain
    rw [show (showP 2 false).mat.therm ((shearU g).e 0) = 0 from rfl]
    ext i j
    rw [Matrix.sub_apply, Matrix.sub_apply]
    rw [show smallStrain (showP 2 false).mat.d (showP 2 false).mat.ndof ((shearU g).e 0) (cornerX2.e 0) i j =
      smallStrain 2 3 ((shearU g).e 0) (cornerX2.e 0) i j from rfl, hsm i j]
    fin_cases i <;> fin_cases j <;> simp [point, strainTensor, showP]
  unfold Plast.stressEl
  rw [hE, showP_pen]
  ext i j
  fin_cases i <;> fin_cases j <;> simp [hooke, deviator, Matrix.trace, Fin.sum_univ_three, showP, slabJ] <;> ring

/-- In simple shear to one side the principal stresses are right, to the other side they are not. -/
example (pow23 : ℝ → ℝ) (init : Nat → Nat → Nat) (g : ℝ) :
    ((showP 2 false).evaluateOut ["cauchy stress", "principal stresses"] pow23 init (fun _ => [0]) [0] [0] (shearU g)
      ⟨1, 10, fun _ _ => 0⟩ ⟨1, 6, fun _ _ => 0⟩ ⟨1, 3, fun _ _ => 1⟩ cornerX2 ⟨1, 9, fun _ _ => 0⟩).Sat fun r =>
      Stored r.2 1 [0] [0] "principal stresses" none (fun data =>
        (0 ≤ g → ∀ l, IsEigen !![0, g; g, 0] l ↔ l = data.e 0 0 ∨ l = data.e 0 1)) ∧
      Stored r.2 1 [0] [0] "principal stresses" none (fun data =>
        (g < 0 → ∀ i, i < 2 → ¬ IsEigen !![0, g; g, 0] (data.e 0 i))) ∧
      Stored r.2 1 [0] [0] "cauchy stress" none (fun data =>
        stressTensor 2 (data.e 0) = !![0, g, 0; g, 0, 0; 0, 0, 0]) := by
  have hw : GWs (showP 2 false) [0].length (shearU g) ⟨1, 10, fun _ _ => 0⟩ ⟨1, 6, fun _ _ => 0⟩
    ⟨1, 3, fun _ _ => 1⟩ cornerX2 := ⟨rfl, le_rfl, rfl, rfl, rfl, le_rfl, rfl, le_rfl, rfl, rfl, rfl⟩
  have hb : block !![0, g, 0; g, 0, 0; 0, 0, 0] = !![0, g; g, 0] := by
    ext i j
    fin_cases i <;> fin_cases j <;> simp [block]
  have hL : ∀ L ∈ (showP 2 false).bodyLoads, L.Ok (showP 2 false).d (showP 2 false).ndof [0] := fun L hL => by simp [showP] at hL
  obtain ⟨r, e, h1⟩ := C82_principal_plane_partial (P := showP 2 false) (.inl rfl) (by simp [showP]) hw hL
    (fun _ => seq_one) seq_one (by simp) (result := ⟨1, 9, fun _ _ => 0⟩) le_rfl le_rfl (nelems := 1) seq_one (by simp) (by simp) rfl pow23 init
    (plottable := ["cauchy stress", "principal stresses"]) (by simp) (entry := none) (by simp)
  obtain ⟨r', e', h2⟩ := C82_principal_shear_false (P := showP 2 false) (.inl rfl) (by simp [showP]) hw hL
    (fun _ => seq_one) seq_one (by simp) (result := ⟨1, 9, fun _ _ => 0⟩) le_rfl le_rfl (nelems := 1) seq_one (by simp) (by simp) rfl pow23 init
    (plottable := ["cauchy stress", "principal stresses"]) (by simp) (entry := none) (by simp)
  obtain ⟨r'', e'', h3⟩ := C82_cauchy_plane (P := showP 2 false) (.inl rfl) (by simp [showP]) hw hL
    (fun _ => seq_one) seq_one (by simp) (result := ⟨1, 9, fun _ _ => 0⟩) le_rfl le_rfl (nelems := 1) seq_one (by simp) (by simp) rfl pow23 init
    (plottable := ["cauchy stress", "principal stresses"]) (by simp) (entry := none) (by simp)
  rw [e] at e' e''
  cases e'
  cases e''
  refine ⟨r, e, ?_, ?_, ?_⟩
  · obtain ⟨view, v1, v2, v3⟩ := h1
    refine ⟨view, v1, v2, v3.mono fun data h hg l => ?_⟩
    have := h 0 (by simp) (by rw [shear_stress]; simpa using hg) l
    rw [shear_stress, hb, show (showP 2 false).mat.therm ((shearU g).e 0) = 0 from rfl, mul_zero, add_zero] at this
    exact this
  · obtain ⟨view, v1, v2, v3⟩ := h2
    refine ⟨view, v1, v2, v3.mono fun data h hg i hi => ?_⟩
    have := h 0 (by simp) rfl (by rw [shear_stress]; simpa using hg) i hi
    rw [shear_stress, hb] at this
    exact this
  · obtain ⟨view, v1, v2, v3⟩ := h3
    refine ⟨view, v1, v2, v3.mono fun data h => ?_⟩
    have := h 0 (by simp)
    rw [shear_stress] at this
    exact this

/-- Stretch of the corner of the cube in the third direction. -/
def stretchU : V2 ℝ := ⟨1, 16, fun _ l => if l = 14 then 1 else 0⟩

/-- The Cauchy stress shown for a stretch in the third direction is wrong. -/
example (pow23 : ℝ → ℝ) (init : Nat → Nat → Nat) :
    ((showP 3 false).evaluateOut ["cauchy stress"] pow23 init (fun _ => [0]) [0] [0] stretchU ⟨1, 14, fun _ _ => 0⟩
      ⟨1, 12, fun _ _ => 0⟩ ⟨1, 4, fun _ _ => 1⟩ cornerX ⟨1, 16, fun _ _ => 0⟩).Sat fun r =>
      Stored r.2 1 [0] [0] "cauchy stress" none fun data => stressTensor 3 (data.e 0) ≠
        (showP 3 false).stressEl (stretchU.e 0) (fun _ => 0) (fun _ => 1) (cornerX.e 0) := by
  have hdet : detForm 3 (cornerX.e 0) ≠ 0 := by simp [detForm, cornerX, edge, detj3]
  have hsm := smallStrain_affine (d := 3) (ndof := 4) (.inr rfl) hdet (U := stretchU.e 0) (b := fun _ => 0)
    (A := fun i j => if i = 2 ∧ j = 2 then 1 else 0) (by
      intro n i hn hi
      simp only [sum_range_succ, sum_range_zero, stretchU, cornerX]
      interval_cases n <;> interval_cases i <;> simp)
  have hE : ∀ i j, (showP 3 false).strainEl (stretchU.e 0) (fun _ => 0) (cornerX.e 0) i j =
      if i = 2 ∧ j = 2 then 1 else 0 := by
    intro i j
    unfold Plast.strainEl J2.mechStrain
    rw [show (showP 3 false).mat.therm (stretchU.e 0) = 0 from rfl]
    rw [Matrix.sub_apply, Matrix.sub_apply]
    rw [show smallStrain (showP 3 false).mat.d (showP 3 false).mat.ndof (stretchU.e 0) (cornerX.e 0) i j =
      smallStrain 3 4 (stretchU.e 0) (cornerX.e 0) i j from rfl, hsm i j]
    fin_cases i <;> fin_cases j <;> simp [point, strainTensor, showP]
  refine (C82_cauchy_space_false (P := showP 3 false) (.inr rfl) (by simp [showP]) (cells := [0])
    ⟨rfl, le_rfl, rfl, rfl, rfl, le_rfl, rfl, le_rfl, rfl, rfl, rfl⟩ (fun L hL => by simp [showP] at hL)
    (fun _ => seq_one) seq_one (by simp) le_rfl le_rfl (nelems := 1) seq_one (by simp) (by simp) rfl pow23 init
    (List.mem_singleton.2 rfl) (entry := none) (by simp)).mono ?_
  rintro r ⟨view, v1, v2, v3⟩
  refine ⟨view, v1, v2, v3.mono fun data h heq => ?_⟩
  have := (h 0 (by simp)).1 heq
  rw [hE, hE, showP_pen] at this
  simp [showP, slabJ] at this

end Plato.Plast
