import Verif.Blas.Model
import Mathlib.Analysis.Real.Sqrt

/-!
# Model of the linear elastic materials

/repo/src: `LinearElasticMaterial.cpp`, `IsotropicLinearElasticMaterial.cpp`,
`CubicLinearElasticMaterial.cpp`, `OrthotropicLinearElasticMaterial.cpp`,
`CustomLinearElasticMaterial.cpp`, `Rank4Voigt.cpp`, `IsotropicStiffness.cpp`, the functors of
`MaterialModel.hpp` and `ParseTools.hpp`.

A parameter list is a partial map from names to values; `Teuchos::ParameterList::get<Scalar>` of a
missing entry or of an entry of another type throws.  Scalars are real numbers; division by zero is
zero in the model and not a number or infinite in the code, so nothing is claimed where a divisor
vanishes.
-/

namespace Plato.Material
open Plato

/-- Entry of a parameter list: a number or something else. -/
inductive PVal where
  | scalar (r : ℝ)
  | other

/-- `Teuchos::ParameterList` without sublists. -/
abbrev Params := String → Option PVal

/-- `isParameter(name)` -/
def Params.isParameter (p : Params) (name : String) : Bool := (p name).isSome

/-- `isType<Scalar>(name)` -/
def Params.isScalar (p : Params) (name : String) : Bool :=
  match p name with
  | some (.scalar _) => true
  | _ => false

/-- `get<Scalar>(name)` of a constant list. -/
def Params.get (p : Params) (name : String) : Res ℝ :=
  match p name with
  | some (.scalar r) => .ok r
  | _ => throwErr "bad parameter"

/-- `if(isType<Scalar>(name)) x = get<Scalar>(name)` and `getParam` with a default,
ParseTools.hpp:46-56. -/
def Params.getD (p : Params) (name : String) (x : ℝ) : ℝ :=
  match p name with
  | some (.scalar r) => r
  | _ => x

/-- `getParam` without default, ParseTools.hpp:66-81. -/
def Params.getParam (p : Params) (name : String) : Res ℝ :=
  match p name with
  | some (.scalar r) => .ok r
  | _ => throwErr ("Missing required parameter " ++ name)

/-- Number of Voigt terms, LinearElasticMaterial.hpp. -/
def voigt (d : Nat) : Nat := if d = 3 then 6 else if d = 2 then 3 else if d = 1 then 1 else 0

/-- A sequence of assignments `m(i,j) = a`. -/
def assign (m : V2 ℝ) (l : List (Nat × Nat × ℝ)) : Res (V2 ℝ) :=
  l.foldlM (fun m t => vwr2 m t.1 t.2.1 t.2.2) m

/-- The zero matrix, LinearElasticMaterial.cpp:11-25 and `c0{{0.0}}` in MaterialModel.hpp. -/
def zeroStiff (d : Nat) : V2 ℝ := ⟨voigt d, voigt d, fun _ _ => 0⟩

/-- Members of `LinearElasticMaterial`. -/
structure Elastic where
  stiff : V2 ℝ
  refStrain : List ℝ
  density : ℝ
  pressure : ℝ
  rayleighA : ℝ
  rayleighB : ℝ

/-- `setReferenceStrainTensor`, LinearElasticMaterial.cpp:28-32, 86-94, 149-163. -/
def refStrain (d : Nat) (p : Params) : List ℝ :=
  if d = 3 then [p.getD "e11" 0, p.getD "e22" 0, p.getD "e33" 0, p.getD "e23" 0, p.getD "e13" 0,
    p.getD "e12" 0]
  else if d = 2 then [p.getD "e11" 0, p.getD "e22" 0, p.getD "e12" 0]
  else [p.getD "e11" 0]

/-- Constructor of the base class, LinearElasticMaterial.cpp:45-62, 107-124, 176-193. -/
def elasticBase (d : Nat) (p : Params) : Elastic :=
  ⟨zeroStiff d, refStrain d p, 1, 1, p.getD "RayleighA" 0, p.getD "RayleighB" 0⟩

/-- Default constructor of the base class, LinearElasticMaterial.cpp:35-42, 97-104, 166-173. -/
def elasticDefault (d : Nat) : Elastic :=
  ⟨zeroStiff d, List.replicate (voigt d) 0, 1, 1, 0, 0⟩

/-- The assignments to the stiffness, IsotropicLinearElasticMaterial.cpp:25, 59-63, 97-108 and the copies
at 141, 157-161, 177-188 and in CustomLinearElasticMaterial.cpp:29, 66-70, 107-118. -/
noncomputable def isoEntries (d : Nat) (c v : ℝ) : List (Nat × Nat × ℝ) :=
  if d = 3 then
    [(0, 0, c * (1 - v)), (0, 1, c * v), (0, 2, c * v),
     (1, 0, c * v), (1, 1, c * (1 - v)), (1, 2, c * v),
     (2, 0, c * v), (2, 1, c * v), (2, 2, c * (1 - v)),
     (3, 3, 1 / 2 * c * (1 - 2 * v)), (4, 4, 1 / 2 * c * (1 - 2 * v)), (5, 5, 1 / 2 * c * (1 - 2 * v))]
  else if d = 2 then
    [(0, 0, c * (1 - v)), (0, 1, c * v), (1, 0, c * v), (1, 1, c * (1 - v)),
     (2, 2, 1 / 2 * c * (1 - 2 * v))]
  else [(0, 0, c * (1 - v))]

/-- `tCoeff`, IsotropicLinearElasticMaterial.cpp:24, 57, 95. -/
noncomputable def isoCoeff (E v : ℝ) : ℝ := E / ((1 + v) * (1 - 2 * v))

/-- Constructor from a parameter list, IsotropicLinearElasticMaterial.cpp:16-43, 49-81, 87-126. -/
noncomputable def isotropic (d : Nat) (p : Params) : Res Elastic := do
  let b := elasticBase d p
  let v ← p.get "Poissons Ratio"
  let E ← p.get "Youngs Modulus"
  let C ← assign b.stiff (isoEntries d (isoCoeff E v) v)
  pure ⟨C, b.refStrain, p.getD "Mass Density" 1, p.getD "Pressure Scaling" (E / (3 * (1 - 2 * v))),
    b.rayleighA, b.rayleighB⟩

/-- Constructor from two numbers, IsotropicLinearElasticMaterial.cpp:132-142, 148-162, 168-189. -/
noncomputable def isotropicNumbers (d : Nat) (E v : ℝ) : Res Elastic := do
  let b := elasticDefault d
  let C ← assign b.stiff (isoEntries d (isoCoeff E v) v)
  pure ⟨C, b.refStrain, b.density, b.pressure, b.rayleighA, b.rayleighB⟩

/-- CustomLinearElasticMaterial.cpp:13-47, 50-88, 91-136; `coeff` is the outcome of
`GetCustomExpressionValue`. -/
noncomputable def custom (d : Nat) (coeff : Res ℝ) (p : Params) : Res Elastic := do
  let b := elasticBase d p
  let v ← p.get "v"
  let E ← p.get "E"
  let c ← coeff
  let C ← assign b.stiff (isoEntries d c v)
  pure ⟨C, b.refStrain, p.getD "Mass Density" 1, p.getD "Pressure Scaling" (E / (3 * (1 - 2 * v))),
    b.rayleighA, b.rayleighB⟩

/-- The assignments in CubicLinearElasticMaterial.cpp:21, 36-40, 55-66. -/
def cubicEntries (d : Nat) (c11 c12 c44 : ℝ) : List (Nat × Nat × ℝ) :=
  if d = 3 then
    [(0, 0, c11), (0, 1, c12), (0, 2, c12), (1, 0, c12), (1, 1, c11), (1, 2, c12),
     (2, 0, c12), (2, 1, c12), (2, 2, c11), (3, 3, c44), (4, 4, c44), (5, 5, c44)]
  else if d = 2 then [(0, 0, c11), (0, 1, c12), (1, 0, c12), (1, 1, c11), (2, 2, c44)]
  else [(0, 0, c11)]

/-- CubicLinearElasticMaterial.cpp:15-67; density and pressure scaling keep the values of the base
class. -/
def cubic (d : Nat) (p : Params) : Res Elastic := do
  let b := elasticBase d p
  let c11 ← p.get "C11"
  let c12 ← if d = 1 then pure 0 else p.get "C12"
  let c44 ← if d = 1 then pure 0 else p.get "C44"
  let C ← assign b.stiff (cubicEntries d c11 c12 c44)
  pure ⟨C, b.refStrain, b.density, b.pressure, b.rayleighA, b.rayleighB⟩

/-- Throw when the condition holds. -/
def rejectIf (c : Prop) [Decidable c] (msg : String) : Res Unit := if c then throwErr msg else pure ()

/-- `checkOrthoMaterialInputs`, OrthotropicLinearElasticMaterial.cpp:134-173, 305-324, 388-399. -/
def orthoInputs (d : Nat) (p : Params) : Res Unit :=
  let names :=
    if d = 3 then ["Youngs Modulus X", "Youngs Modulus Y", "Youngs Modulus Z", "Shear Modulus XY",
      "Shear Modulus XZ", "Shear Modulus YZ", "Poissons Ratio XY", "Poissons Ratio XZ",
      "Poissons Ratio YZ"]
    else if d = 2 then ["Youngs Modulus X", "Youngs Modulus Y", "Shear Modulus XY", "Poissons Ratio XY"]
    else ["Poissons Ratio", "Youngs Modulus"]
  names.forM fun n => rejectIf (p.isParameter n = false) (n ++ " is not defined.")

open Classical in
/-- `checkOrthoMaterialStability` in three dimensions, OrthotropicLinearElasticMaterial.cpp:20-129. -/
noncomputable def orthoStability3 (p : Params) : Res Unit := do
  let Ex ← p.get "Youngs Modulus X"
  rejectIf (Ex < 0) "'Youngs Modulus X' must be positive."
  let Ey ← p.get "Youngs Modulus Y"
  rejectIf (Ey < 0) "'Youngs Modulus Y' must be positive."
  let Ez ← p.get "Youngs Modulus Z"
  rejectIf (Ez < 0) "'Youngs Modulus Z' must be positive."
  let Gxy ← p.get "Shear Modulus XY"
  rejectIf (Gxy < 0) "'Shear Modulus XY' must be positive."
  let Gxz ← p.get "Shear Modulus XZ"
  rejectIf (Gxz < 0) "'Shear Modulus XZ' must be positive."
  let Gyz ← p.get "Shear Modulus YZ"
  rejectIf (Gyz < 0) "'Shear Modulus YZ' must be positive."
  let vxy ← p.get "Poissons Ratio XY"
  rejectIf (|vxy| > Real.sqrt (Ex / Ey)) "Condition XY was not met."
  let vyz ← p.get "Poissons Ratio YZ"
  rejectIf (|vyz| > Real.sqrt (Ey / Ez)) "Condition YZ was not met."
  let vxz ← p.get "Poissons Ratio XZ"
  rejectIf (|vxz| > Real.sqrt (Ex / Ez)) "Condition XZ was not met."
  let vyx := vxy * (Ey / Ex)
  rejectIf (|vyx| > Real.sqrt (Ey / Ex)) "Condition YX was not met."
  let vzy := vyz * (Ez / Ey)
  rejectIf (|vzy| > Real.sqrt (Ez / Ey)) "Condition ZY was not met."
  let vzx := vxz * (Ez / Ex)
  rejectIf (|vzx| > Real.sqrt (Ez / Ex)) "Condition ZX was not met."
  rejectIf (1 - vxy * vyx - vyz * vzy - vxz * vzx - 2 * (vyx * vzy * vxz) < 0)
    "Determinant of the compliance matrix is negative."

open Classical in
/-- `checkOrthoMaterialStability` in two dimensions, OrthotropicLinearElasticMaterial.cpp:258-300. -/
noncomputable def orthoStability2 (p : Params) : Res Unit := do
  let Ex ← p.get "Youngs Modulus X"
  rejectIf (Ex < 0) "'Youngs Modulus X' must be positive."
  let Ey ← p.get "Youngs Modulus Y"
  rejectIf (Ey < 0) "'Youngs Modulus Y' must be positive."
  let Gxy ← p.get "Shear Modulus XY"
  rejectIf (Gxy < 0) "'Shear Modulus XY' must be positive."
  let vxy ← p.get "Poissons Ratio XY"
  rejectIf (|vxy| > Real.sqrt (Ex / Ey)) "Condition XY was not met."
  let vyx := vxy * (Ey / Ex)
  rejectIf (|vyx| > Real.sqrt (Ey / Ex)) "Condition YX was not met."

/-- `setOrthoMaterialModel` in three dimensions, OrthotropicLinearElasticMaterial.cpp:178-224; only the
stiffness. -/
noncomputable def orthoStiff3 (m : V2 ℝ) (Ex Ey Ez Gxy Gxz Gyz vxy vxz vyz : ℝ) : Res (V2 ℝ) := do
  let vyx := vxy * (Ey / Ex)
  let vzx := vxz * (Ez / Ex)
  let vzy := vyz * (Ez / Ey)
  let det := 1 - vxy * vyx - vyz * vzy - vxz * vzx - 2 * (vyx * vzy * vxz)
  let delta := det / (Ex * Ey * Ez)
  let den1 := Ey * Ez * delta
  let m ← vwr2 m 0 0 ((1 - vyz * vzy) / den1)
  let m ← vwr2 m 0 1 ((vyx + vzx * vyz) / den1)
  let m ← vwr2 m 0 2 ((vzx + vyx * vzy) / den1)
  let den2 := Ez * Ex * delta
  let m ← vwr2 m 1 0 (← vrd2 m 0 1)
  let m ← vwr2 m 1 1 ((1 - vzx * vxz) / den2)
  let m ← vwr2 m 1 2 ((vzy + vzx * vxy) / den2)
  let den3 := Ex * Ey * delta
  let m ← vwr2 m 2 0 (← vrd2 m 0 2)
  let m ← vwr2 m 2 1 (← vrd2 m 1 2)
  let m ← vwr2 m 2 2 ((1 - vxy * vyx) / den3)
  let m ← vwr2 m 3 3 Gyz
  let m ← vwr2 m 4 4 Gxz
  vwr2 m 5 5 Gxy

/-- `setOrthoMaterialModel` in two dimensions, OrthotropicLinearElasticMaterial.cpp:329-346; only the
stiffness. -/
noncomputable def orthoStiff2 (m : V2 ℝ) (Ex Ey Gxy vxy : ℝ) : Res (V2 ℝ) := do
  let vyx := vxy * (Ey / Ex)
  let m ← vwr2 m 0 0 (Ex / (1 - vxy * vyx))
  let m ← vwr2 m 0 1 (vxy * Ey / (1 - vxy * vyx))
  let m ← vwr2 m 1 0 (vxy * Ey / (1 - vxy * vyx))
  let m ← vwr2 m 1 1 (Ey / (1 - vxy * vyx))
  vwr2 m 2 2 Gxy

/-- `mCellDensity = isParameter("Mass Density") ? get("Mass Density") : 1.0`,
OrthotropicLinearElasticMaterial.cpp:182, 333, 408. -/
def orthoDensity (p : Params) : Res ℝ :=
  if p.isParameter "Mass Density" then p.get "Mass Density" else pure 1

/-- Constructor in three dimensions, OrthotropicLinearElasticMaterial.cpp:229-237. -/
noncomputable def orthotropic3 (p : Params) : Res Elastic := do
  let b := elasticBase 3 p
  orthoInputs 3 p
  orthoStability3 p
  let rho ← orthoDensity p
  let Ex ← p.get "Youngs Modulus X"
  let Ey ← p.get "Youngs Modulus Y"
  let Ez ← p.get "Youngs Modulus Z"
  let Gxy ← p.get "Shear Modulus XY"
  let Gxz ← p.get "Shear Modulus XZ"
  let Gyz ← p.get "Shear Modulus YZ"
  let vxy ← p.get "Poissons Ratio XY"
  let vxz ← p.get "Poissons Ratio XZ"
  let vyz ← p.get "Poissons Ratio YZ"
  let C ← orthoStiff3 b.stiff Ex Ey Ez Gxy Gxz Gyz vxy vxz vyz
  pure ⟨C, b.refStrain, rho, b.pressure, b.rayleighA, b.rayleighB⟩

/-- Constructor in two dimensions, OrthotropicLinearElasticMaterial.cpp:351-359. -/
noncomputable def orthotropic2 (p : Params) : Res Elastic := do
  let b := elasticBase 2 p
  orthoInputs 2 p
  orthoStability2 p
  let rho ← orthoDensity p
  let Ex ← p.get "Youngs Modulus X"
  let Ey ← p.get "Youngs Modulus Y"
  let Gxy ← p.get "Shear Modulus XY"
  let vxy ← p.get "Poissons Ratio XY"
  let C ← orthoStiff2 b.stiff Ex Ey Gxy vxy
  pure ⟨C, b.refStrain, rho, b.pressure, b.rayleighA, b.rayleighB⟩

/-- Constructor in one dimension, OrthotropicLinearElasticMaterial.cpp:380-428: no stability check. -/
noncomputable def orthotropic1 (p : Params) : Res Elastic := do
  let b := elasticBase 1 p
  orthoInputs 1 p
  let rho ← orthoDensity p
  let v ← p.get "Poissons Ratio"
  let E ← p.get "Youngs Modulus"
  let C ← vwr2 b.stiff 0 0 (isoCoeff E v * (1 - v))
  pure ⟨C, b.refStrain, rho, b.pressure, b.rayleighA, b.rayleighB⟩

/-- `Rank4VoigtConstant`, Rank4Voigt.cpp:82-113, and the three tables of `Rank4VoigtFunctor`, 11-80, which
repeat it with a prefix; in the functor only the table of the constant terms has required entries. -/
def rank4 (d : Nat) (req : Bool) (pre : String) (p : Params) : Res (V2 ℝ) := do
  let need := fun n => if req then p.getParam (pre ++ n) else pure (p.getD (pre ++ n) 0)
  let opt := fun n x => p.getD (pre ++ n) x
  let m := zeroStiff d
  let c11 ← need "11"
  if d = 3 then do
    let c44 ← need "44"
    let c12 := opt "12" 0
    let c13 := opt "13" c12
    let c23 := opt "23" c12
    assign m [(0, 0, c11), (1, 1, opt "22" c11), (2, 2, opt "33" c11),
      (0, 1, c12), (1, 0, c12), (0, 2, c13), (2, 0, c13), (1, 2, c23), (2, 1, c23),
      (3, 3, c44), (4, 4, opt "55" c44), (5, 5, opt "66" c44)]
  else if d = 2 then do
    let c33 ← need "33"
    let c12 := opt "12" 0
    assign m [(0, 0, c11), (1, 1, opt "22" c11), (0, 1, c12), (1, 0, c12), (2, 2, c33)]
  else assign m [(0, 0, c11)]

/-- `Rank4VoigtConstant(params)` -/
def rank4Constant (d : Nat) (p : Params) : Res (V2 ℝ) := rank4 d true "c" p

/-- The tables of a `Rank4VoigtFunctor`. -/
structure Rank4Fn where
  c0 : V2 ℝ
  c1 : V2 ℝ
  c2 : V2 ℝ

/-- `Rank4VoigtFunctor(params)` -/
def rank4Functor (d : Nat) (p : Params) : Res Rank4Fn := do
  let c0 ← rank4 d true "c0" p
  let c1 ← rank4 d false "c1" p
  let c2 ← rank4 d false "c2" p
  pure ⟨c0, c1, c2⟩

/-- `Rank4VoigtFunctor::operator()`, MaterialModel.hpp:246-253. -/
def Rank4Fn.at (f : Rank4Fn) (x : ℝ) (i j : Nat) : Res ℝ := do
  let a ← vrd2 f.c1 i j
  let b ← vrd2 f.c0 i j
  let c ← vrd2 f.c2 i j
  pure (x * a + b + x * x * c)

/-- `c`, IsotropicStiffness.cpp:33, 63, 91, 103, 119, with `E0*c`. -/
noncomputable def isoCoeff' (E v : ℝ) : ℝ := E * (1 / ((1 + v) * (1 - 2 * v)))

/-- `IsotropicStiffnessConstant`, IsotropicStiffness.cpp:85-127. -/
noncomputable def isoConstant (d : Nat) (p : Params) : Res (V2 ℝ) := do
  let E ← p.getParam "Youngs Modulus"
  let v ← p.getParam "Poissons Ratio"
  assign (zeroStiff d) (isoEntries d (isoCoeff' E v) v)

/-- `IsotropicStiffnessFunctor` in one dimension, IsotropicStiffness.cpp:6-20: the factor `(1+v)(1-2v)` is
a factor here, not a divisor, and `c0` has a default; `young` is the sublist. -/
def isoFunctor1 (p young : Params) : Res Rank4Fn := do
  let v ← p.getParam "Poissons Ratio"
  let E0 := young.getD "c0" 0
  let E1 := young.getD "c1" 0
  let E2 := young.getD "c2" 0
  let c0 ← assign (zeroStiff 1) [(0, 0, E0 * ((1 + v) * (1 - 2 * v)) * (1 - v))]
  let c1 ← assign (zeroStiff 1) [(0, 0, E1 * ((1 + v) * (1 - 2 * v)) * (1 - v))]
  let c2 ← assign (zeroStiff 1) [(0, 0, E2 * ((1 + v) * (1 - 2 * v)) * (1 - v))]
  pure ⟨c0, c1, c2⟩

/-- `IsotropicStiffnessFunctor` in two and three dimensions, IsotropicStiffness.cpp:22-83. -/
noncomputable def isoFunctor (d : Nat) (p young : Params) : Res Rank4Fn :=
  if d = 1 then isoFunctor1 p young
  else do
    let v ← p.getParam "Poissons Ratio"
    let E0 ← young.getParam "c0"
    let E1 := young.getD "c1" 0
    let E2 := young.getD "c2" 0
    let c0 ← assign (zeroStiff d) (isoEntries d (isoCoeff' E0 v) v)
    let c1 ← assign (zeroStiff d) (isoEntries d (isoCoeff' E1 v) v)
    let c2 ← assign (zeroStiff d) (isoEntries d (isoCoeff' E2 v) v)
    pure ⟨c0, c1, c2⟩

end Plato.Material
