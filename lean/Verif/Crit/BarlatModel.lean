import Verif.Common.Res
import Mathlib.Analysis.SpecialFunctions.Trigonometric.Inverse
import Mathlib.Analysis.SpecialFunctions.Pow.Real
import Mathlib.Algebra.BigOperators.Group.Finset.Basic

/-!
# Barlat norm of a stress

Model of `BarlatNormFunctor` (TensorPNorm.hpp): constructor and value of a cell.  A value that is not a number is `none`:
a quotient by zero under the arc cosine, and an arc cosine outside [-1, 1].  Simplified: numbers are real; the arrays
"T1i" and "T2i" of the input are functions of the two indices (the code reads six entries without a check); views are
not modelled, the stress of the cell is a function of the Voigt index.
-/

namespace Plato.Crit.Barlat
open Finset

/-- An entry of a parameter list: an integer, a real number, or something else. -/
inductive Entry where
  | int (n : Int)
  | real (r : ℝ)
  | other

/-- `mBarlatExponent`, TensorPNorm.hpp:124, 129-132: `isType` asks for an integer, `get` for a real number; `get` throws
if the entry has another type. -/
def exponent : Option Entry → Res Int
  | some (.int _) => .err "InvalidParameterType"
  | _ => .ok 6

/-- `mReferenceWeight`, TensorPNorm.hpp:125, 133-136. -/
noncomputable def reference : Option Entry → ℝ
  | some (.real r) => r
  | _ => 1

/-- `mapToDevStress`, TensorPNorm.hpp:159-164. -/
noncomputable def dev (k j : Nat) : ℝ :=
  if k < 3 ∧ j < 3 then (if k = j then 2 / 3 else -1 / 3) else if k = j then 1 else 0

/-- `mCp`, `mCpp`, TensorPNorm.hpp:166-178. -/
noncomputable def coef (T : Nat → Nat → ℝ) (i j : Nat) : ℝ := ∑ k ∈ range 6, T i k * dev k j

/-- The six components of the stress, TensorPNorm.hpp:188-203.  `terms` is `VoigtLength`. -/
def six (terms : Nat) (σ : Nat → ℝ) (i : Nat) : ℝ :=
  if terms = 6 then σ i
  else if terms = 3 then (if i = 0 then σ 0 else if i = 1 then σ 1 else if i = 5 then σ 2 else 0)
  else if terms = 1 then (if i = 0 then σ 0 else 0)
  else 0

/-- `sp`, `spp`, TensorPNorm.hpp:205-215. -/
noncomputable def transformed (T : Nat → Nat → ℝ) (s : Nat → ℝ) (i : Nat) : ℝ := ∑ j ∈ range 6, coef T i j * s j

/-- `Hp1`, TensorPNorm.hpp:218, 225. -/
noncomputable def H1 (s : Nat → ℝ) : ℝ := (s 0 + s 1 + s 2) / 3

/-- `Hp2`, TensorPNorm.hpp:219-221, 226-228. -/
noncomputable def H2 (s : Nat → ℝ) : ℝ :=
  (s 3 * s 3 + s 4 * s 4 + s 5 * s 5 - s 1 * s 2 - s 2 * s 0 - s 0 * s 1) / 3

/-- `Hp3`, TensorPNorm.hpp:222-224, 229-231. -/
noncomputable def H3 (s : Nat → ℝ) : ℝ :=
  (2 * s 3 * s 4 * s 5 + s 0 * s 1 * s 2 - s 0 * s 3 * s 3 - s 1 * s 4 * s 4 - s 2 * s 5 * s 5) / 2

/-- `Pp`, TensorPNorm.hpp:234-236, 240-242. -/
noncomputable def P (s : Nat → ℝ) : ℝ := if 0 < H1 s * H1 s + H2 s then H1 s * H1 s + H2 s else 0

/-- `Qp`, TensorPNorm.hpp:237, 243. -/
noncomputable def Q (s : Nat → ℝ) : ℝ := (2 * H1 s * H1 s * H1 s + 3 * H1 s * H2 s + 2 * H3 s) / 2

/-- `Thetap`, TensorPNorm.hpp:238, 244. -/
noncomputable def theta (s : Nat → ℝ) : Option ℝ :=
  if P s ^ (3 / 2 : ℝ) = 0 then none
  else if |Q s / P s ^ (3 / 2 : ℝ)| ≤ 1 then some (Real.arccos (Q s / P s ^ (3 / 2 : ℝ))) else none

/-- `Sp1`, `Sp2`, `Sp3`, TensorPNorm.hpp:247-253. -/
noncomputable def principal (s : Nat → ℝ) : Option (ℝ × ℝ × ℝ) :=
  (theta s).map fun θ =>
    (H1 s + 2 * Real.sqrt (H1 s * H1 s + H2 s) * Real.cos (θ / 3),
     H1 s + 2 * Real.sqrt (H1 s * H1 s + H2 s) * Real.cos ((θ + 4 * Real.arccos (-1)) / 3),
     H1 s + 2 * Real.sqrt (H1 s * H1 s + H2 s) * Real.cos ((θ + 2 * Real.arccos (-1)) / 3))

/-- Effective stress before normalisation, TensorPNorm.hpp:256-262. -/
noncomputable def effective (m : Int) (a b : ℝ × ℝ × ℝ) : ℝ :=
  (((a.1 - b.1) ^ m + (a.1 - b.2.1) ^ m + (a.1 - b.2.2) ^ m + (a.2.1 - b.1) ^ m + (a.2.1 - b.2.1) ^ m +
    (a.2.1 - b.2.2) ^ m + (a.2.2 - b.1) ^ m + (a.2.2 - b.2.1) ^ m + (a.2.2 - b.2.2) ^ m) / 4) ^ (1 / (m : ℝ))

/-- `operator()`, TensorPNorm.hpp:181-270: the entry of the cell. -/
noncomputable def functor (m : Int) (ref : ℝ) (T1 T2 : Nat → Nat → ℝ) (terms : Nat) (p : Int) (σ : Nat → ℝ) (vol : ℝ) :
    Option ℝ := do
  let a ← principal (transformed T1 (six terms σ))
  let b ← principal (transformed T2 (six terms σ))
  pure ((effective m a b / ref) ^ p * vol)

end Plato.Crit.Barlat
