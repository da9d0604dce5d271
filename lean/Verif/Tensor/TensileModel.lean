import Verif.Tensor.EigenModel
import Verif.Mech.Model

/-!
# Tensile energy density

Model of `TensileEnergyDensityLocalMeasure` (TensileEnergyDensityLocalMeasure.hpp) and `TensileEnergyDensity`
(TensileEnergyDensity.hpp).  Reused: gradient of a cell and strain (Verif/Mech/Model.lean), eigenvalues
(Verif/Tensor/EigenModel.lean).  Not modelled: parsing of the lists.
-/

namespace Plato.Tensor
open Plato Plato.Mech

/-- Spatial dimensions and the members `mLameConstantLambda`, `mLameConstantMu`. -/
structure Tensile where
  d : Nat
  lambda : ℝ
  mu : ℝ

/-- Constructor, TensileEnergyDensityLocalMeasure.hpp:43-88.  `mat` is Young's modulus and Poisson's ratio of the list
"Isotropic Linear Elastic" of the material, if it has one. -/
noncomputable def Tensile.construct (d : Nat) (mat : Option (ℝ × ℝ)) : Res Tensile :=
  match mat with
  | none => .err "Tensile Energy Density requires Isotropic Linear Elastic Material Model in ParameterList"
  | some (E, nu) =>
    let mu := E / (2 * (1 + nu))
    .ok ⟨d, 2 * mu * nu / (1 - 2 * nu), mu⟩

/-- `TensileEnergyDensity::operator()`, TensileEnergyDensity.hpp:21-44. -/
noncomputable def tensileDensity (d cell : Nat) (p : V2 ℝ) (lambda mu : ℝ) (out : List ℝ) : Res (List ℝ) := do
  let s ← forRange 0 d ((0 : ℝ), (0 : ℝ)) fun k s => do
    let a ← vrd2 p cell k
    pure (if a ≥ 0 then s.1 + a * a * mu else s.1, s.2 + a)
  let t := if s.2 ≥ 0 then s.2 else 0
  wr out cell (s.1 + lambda * t * t * (1 / 2))

/-- `Eigenvalues<d>` with the default number of iterations, Eigenvalues.hpp:22. -/
noncomputable def eigenvaluesOf (d cell : Nat) (voigt eig : V2 ℝ) : Res (V2 ℝ) :=
  match d with
  | 1 => eigenvalues1 cell voigt eig true
  | 2 => eigenvalues2 cell voigt eig true
  | 3 => eigenvalues3 6 cell voigt eig true
  | _ => .ub

/-- Views allocated by the call. -/
structure TViews where
  vol : List ℝ
  strain : V2 ℝ
  eig : V2 ℝ
  grad : V3 ℝ

/-- Freshly allocated views, TensileEnergyDensityLocalMeasure.hpp:140-143. -/
def TViews.new (d nc : Nat) : TViews where
  vol := List.replicate nc 0
  strain := ⟨nc, numVoigt d, fun _ _ => 0⟩
  eig := ⟨nc, d, fun _ _ => 0⟩
  grad := ⟨nc, d + 1, d, fun _ _ _ => 0⟩

/-- Body of the loop over the cells, TensileEnergyDensityLocalMeasure.hpp:149-152. -/
noncomputable def Tensile.cellBody (P : Tensile) (fabs : ℝ → ℝ) (state : V2 ℝ) (config : V3 ℝ) (cell : Nat)
    (s : TViews × List ℝ) : Res (TViews × List ℝ) := do
  let (g, v) ← computeGradient fabs P.d cell s.1.grad config s.1.vol
  let e ← strain P.d P.d cell s.1.strain state g
  let p ← eigenvaluesOf P.d cell e s.1.eig
  let r ← tensileDensity P.d cell p P.lambda P.mu s.2
  pure (⟨v, e, p, g⟩, r)

/-- The call, TensileEnergyDensityLocalMeasure.hpp:123-154. -/
noncomputable def Tensile.call (P : Tensile) (fabs : ℝ → ℝ) (order : List Nat) (state : V2 ℝ) (config : V3 ℝ)
    (result : List ℝ) : Res (List ℝ) := do
  let (_, r) ← parFor order (TViews.new P.d result.length, result) (P.cellBody fabs state config)
  pure r

end Plato.Tensor
