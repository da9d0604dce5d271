import Verif.Plast.Model
import Verif.Tensor.EigenModel

/-!
# Model of the output of plasticity

Modelled sources in `/repo/src`: `InfinitesimalStrainPlasticityResidual.hpp` and
`InfinitesimalStrainThermoPlasticityResidual.hpp` (`outputData`, `computePrincipalStresses`, the last lines of
`evaluate`), `ComputePrincipalStresses.hpp`.

Simplifications: numbers are real; a view with one index is a view with one column; what `outputData` hands to
`toMap` is returned as a list of names and views.
-/

namespace Plato.Plast
open Plato Plato.Mech Plato.Thermal Plato.J2 Plato.Tensor

/-- The material of the principal stresses: `ComputePrincipalStresses` constructs `ThermoPlasticityUtilities`
without arguments, ComputePrincipalStresses.hpp:173 and ThermoPlasticityUtilities.hpp:35-42. -/
def plainMat (m : J2 ℝ) : J2 ℝ := { m with alpha := 0, tref := 0, tscale := 1 }

/-- Views of `ComputePrincipalStresses::operator()`, ComputePrincipalStresses.hpp:159-163. -/
structure SViews where
  vol : List ℝ
  cauchy : V2 ℝ
  total : V2 ℝ
  elastic : V2 ℝ
  grad : V3 ℝ

/-- Views are allocated with zeros. -/
def SViews.new (d nc : Nat) : SViews where
  vol := List.replicate nc 0
  cauchy := ⟨nc, stressTerms d, fun _ _ => 0⟩
  total := ⟨nc, stressTerms d, fun _ _ => 0⟩
  elastic := ⟨nc, stressTerms d, fun _ _ => 0⟩
  grad := ⟨nc, d + 1, d, fun _ _ _ => 0⟩

/-- `Eigenvalues` with the default number of iterations, Eigenvalues.hpp:22. -/
noncomputable def eigenOf (d cell : Nat) (stress out : V2 ℝ) : Res (V2 ℝ) :=
  if d = 2 then eigenvalues2 cell stress out false else eigenvalues3 6 cell stress out false

/-- Body of the loop, ComputePrincipalStresses.hpp:181-203. -/
noncomputable def Plast.principalCell (P : Plast ℝ) (global locl control : V2 ℝ) (config : V3 ℝ) (cell : Nat)
    (s : SViews × V2 ℝ) : Res (SViews × V2 ℝ) := do
  let (g, v) ← computeGradient (fun a => |a|) P.d cell s.1.grad config s.1.vol
  let a ← rd v cell
  let v ← wr v cell (a * P.cubWeight)
  let tot ← strain P.d P.ndof cell s.1.total global g
  let el ← elasticStrain (plainMat P.mat) cell global locl tot s.1.elastic
  let rho ← cellDensity (P.d + 1) cell control
  let pen := P.pen rho
  let ca ← cauchyStress P.d cell (pen * P.bulk) (pen * P.mat.shear) el s.1.cauchy
  let out ← eigenOf P.d cell ca s.2
  pure (⟨v, ca, tot, el, g⟩, out)

/-- `ComputePrincipalStresses::operator()`, ComputePrincipalStresses.hpp:140-204, with the view allocated at
InfinitesimalStrainPlasticityResidual.hpp:328-329. -/
noncomputable def Plast.principal (P : Plast ℝ) (order : List Nat) (nc : Nat) (global locl control : V2 ℝ)
    (config : V3 ℝ) : Res (V2 ℝ) :=
  if nc = 0 then throwErr "PrincipalStresses: Invalid number of cells."
  else do
    let (_, out) ← parFor order (SViews.new P.d nc, ⟨nc, P.d, fun _ _ => 0⟩)
      (P.principalCell global locl control config)
    pure out

/-- A view with one index. -/
def column (v : List ℝ) : V2 ℝ := ⟨v.length, 1, fun c _ => at0 v c⟩

/-- Names and views of `evaluate`, InfinitesimalStrainPlasticityResidual.hpp:519-525 and
InfinitesimalStrainThermoPlasticityResidual.hpp:570-577. -/
def Plast.named (P : Plast ℝ) (w : PViews ℝ) : List (String × V2 ℝ) :=
  [("plastic multiplier increment", column w.mult), ("accumulated plastic strain", column w.accum),
    ("deviatoric stress", w.dev), ("elastic strain", w.elastic), ("plastic strain", w.plastic),
    ("cauchy stress", w.cauchy), ("backstress", w.back)] ++
  if P.mat.thermal then [("thermal flux", w.flux)] else []

/-- `evaluate` with what it hands to the output, InfinitesimalStrainPlasticityResidual.hpp:397-526: the principal
stresses (313-333) and the named views, as far as their names are in the list `plottable` (243-249). -/
noncomputable def Plast.evaluateOut (P : Plast ℝ) (plottable : List String) (pow23 : ℝ → ℝ) (init : Nat → Nat → Nat)
    (sched : Nat → List Nat) (order cells : List Nat) (global locl node control : V2 ℝ) (config : V3 ℝ)
    (result : V2 ℝ) : Res (V2 ℝ × List (String × V2 ℝ)) := do
  let (out, w) ← P.evaluate (fun a => |a|) pow23 init sched cells global locl node control config result
  let ps ← (if "principal stresses" ∈ plottable then do
    let v ← P.principal order global.d0 global locl control config
    pure [("principal stresses", v)]
    else pure [] : Res (List (String × V2 ℝ)))
  pure (out, ps ++ (P.named w).filter fun e => decide (e.1 ∈ plottable))

end Plato.Plast
