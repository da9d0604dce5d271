import Verif.Blas.Model
import Mathlib.Analysis.SpecialFunctions.Sqrt
import Mathlib.Algebra.BigOperators.Group.Finset.Basic

/-!
# Model of `Eigenvalues` (/repo/src/Eigenvalues.hpp)

Real numbers for floating point numbers and for automatic differentiation values.  The local arrays
`tTensor[3][3]`, `tGivensRotation[3][3]`, `tTensorRotated[3][3]` are functions of two indices: all their
accesses are at constant indices below three or at `p < q <= 2`.
-/

namespace Plato.Tensor
open Finset Plato

/-- `if (aIsStrainType) a /= 2`, Eigenvalues.hpp:83-92 and 192-193. -/
noncomputable def shear (strain : Bool) (a : ℝ) : ℝ := if strain then a / 2 else a

/-- The tensor from its Voigt form: diagonal, off-diagonal, symmetrised; Eigenvalues.hpp:75-98. -/
noncomputable def fillTensor (cell : Nat) (voigt : V2 ℝ) (strain : Bool) : Res (Nat → Nat → ℝ) := do
  let t00 ← vrd2 voigt cell 0
  let t11 ← vrd2 voigt cell 1
  let t22 ← vrd2 voigt cell 2
  let t01 ← vrd2 voigt cell 5
  let t02 ← vrd2 voigt cell 4
  let t12 ← vrd2 voigt cell 3
  let t01 := shear strain t01
  let t02 := shear strain t02
  let t12 := shear strain t12
  pure fun i j => match i, j with
    | 0, 0 => t00
    | 1, 1 => t11
    | 2, 2 => t22
    | 0, 1 => t01
    | 0, 2 => t02
    | 1, 2 => t12
    | 1, 0 => t01
    | 2, 0 => t02
    | 2, 1 => t12
    | _, _ => 0

open Classical in
/-- Location of the largest off-diagonal entry, Eigenvalues.hpp:111-121. -/
noncomputable def pivot (T : Nat → Nat → ℝ) : Nat × Nat :=
  let c1 : Prop := |T 0 2| ≥ |T 1 2|
  let c2 : Prop := |T 0 1| ≥ |T 0 2|
  let c3 : Prop := |T 0 1| ≥ |T 1 2|
  (if ¬ (c1 ∨ c3) then 1 else 0, if c2 ∧ c3 then 1 else 2)

/-- `tTangent`, Eigenvalues.hpp:129-131 and 202-204. -/
noncomputable def tangent (tau : ℝ) : ℝ :=
  if tau ≥ 0 then 1 / (tau + Real.sqrt (1 + tau * tau)) else -1 / (Real.sqrt (1 + tau * tau) - tau)

/-- `tCosine` and `tSine` of the rotation, Eigenvalues.hpp:124-139. -/
noncomputable def rotation (T : Nat → Nat → ℝ) (p q : Nat) : ℝ × ℝ :=
  let cond := |T p q| > 1 / 10 ^ 15
  let tau := if cond then (T q q - T p p) / (2 * T p q) else 0
  let t := tangent tau
  let c := if cond then 1 / Real.sqrt (1 + t * t) else 1
  (c, if cond then t * c else 0)

/-- `tGivensRotation`: the identity, then four entries are overwritten; Eigenvalues.hpp:142-147. -/
def givens (p q : Nat) (c s : ℝ) : Nat → Nat → ℝ := fun i j =>
  if i = q ∧ j = q then c else if i = q ∧ j = p then -s else if i = p ∧ j = q then s
  else if i = p ∧ j = p then c else if i = j then 1 else 0

/-- `tTensorRotated`: the entries on and above the diagonal are computed and copied below it;
Eigenvalues.hpp:149-158. -/
def rotate (T G : Nat → Nat → ℝ) : Nat → Nat → ℝ := fun i l =>
  if i ≤ l then ∑ j ∈ range 3, ∑ k ∈ range 3, G j i * T j k * G k l
  else ∑ j ∈ range 3, ∑ k ∈ range 3, G j l * T j k * G k i

/-- One iteration, Eigenvalues.hpp:109-163. -/
noncomputable def jacobiStep (T : Nat → Nat → ℝ) : Nat → Nat → ℝ :=
  let (p, q) := pivot T
  let (c, s) := rotation T p q
  rotate T (givens p q c s)

/-- `Eigenvalues<3>::operator()`, Eigenvalues.hpp:60-169. -/
noncomputable def eigenvalues3 (iterations cell : Nat) (voigt eig : V2 ℝ) (strain : Bool) : Res (V2 ℝ) := do
  let T ← fillTensor cell voigt strain
  let T ← forRange 0 iterations T fun _ T => pure (jacobiStep T)
  let eig ← vwr2 eig cell 0 (T 0 0)
  let eig ← vwr2 eig cell 1 (T 1 1)
  vwr2 eig cell 2 (T 2 2)

/-- `Eigenvalues<2>::operator()`, Eigenvalues.hpp:179-217. -/
noncomputable def eigenvalues2 (cell : Nat) (voigt eig : V2 ℝ) (strain : Bool) : Res (V2 ℝ) := do
  let t12 ← vrd2 voigt cell 2
  let t12 := shear strain t12
  let t11 ← vrd2 voigt cell 0
  let t22 ← vrd2 voigt cell 1
  let tau := if t12 > 0 then (t22 - t11) / (2 * t12) else 0
  let t := tangent tau
  let c := if t12 > 0 then 1 / Real.sqrt (1 + t * t) else 1
  let s := if t12 > 0 then t * c else 0
  let eig ← vwr2 eig cell 0 (c * (t11 * c - t12 * s) - s * (t12 * c - t22 * s))
  vwr2 eig cell 1 (c * (t22 * c + t12 * s) + s * (t12 * c + t11 * s))

/-- `Eigenvalues<1>::operator()`, Eigenvalues.hpp:227-234. -/
def eigenvalues1 (cell : Nat) (voigt eig : V2 ℝ) (_strain : Bool) : Res (V2 ℝ) := do
  let a ← vrd2 voigt cell 0
  vwr2 eig cell 0 a

end Plato.Tensor
