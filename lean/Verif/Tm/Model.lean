import Verif.Dyn.Model

/-!
# Model of thermomechanics

Modelled sources in `/repo/src`: `TMKinematics.hpp` (class `TMKinematics`), `TMKinetics.hpp` (class
`TMKinetics`), `VoigtMap.hpp`, the operators of `TensorConstant`, `TensorFunctor`, `Rank4VoigtConstant` and
`Rank4VoigtFunctor` of `MaterialModel.hpp`, `elliptic/ThermoelastostaticResidual.hpp`,
`parabolic/TransientThermomechResidual.hpp`, and from `ToMap.hpp` the function that stores a view as output
without a domain.

As in `Verif.Mech.Model` there is one scalar type.  Natural boundary conditions are in `Verif.Bnd`.  A node
carries `d` displacements followed by the temperature.
-/

namespace Plato.Tm
open Plato Plato.Mech Plato.Thermal Plato.Dyn

variable {R : Type} [CommRing R]

/-! ## Material -/

/-- A tensor of the material, `n` rows and columns: the constant and the coefficients of the functor.
`TensorFunctor`, `TensorConstant`, `Rank4VoigtFunctor`, `Rank4VoigtConstant`, MaterialModel.hpp:86-296. -/
structure Table (R : Type) where
  n : Nat
  const : Nat → Nat → R
  c0 : Nat → Nat → R
  c1 : Nat → Nat → R
  c2 : Nat → Nat → R

/-- Entry of the tensor at a temperature. -/
def Table.at (F : Table R) (nonlinear : Bool) (T : R) (i j : Nat) : R :=
  if nonlinear then T * F.c1 i j + F.c0 i j + T * T * F.c2 i j else F.const i j

/-- `operator()`, MaterialModel.hpp:132-139, 188-191, 238-245 and 288-291: the arrays are of fixed size and
an index outside is undefined behaviour. -/
def Table.read (F : Table R) (nonlinear : Bool) (T : R) (i j : Nat) : Res R :=
  if i < F.n ∧ j < F.n then .ok (F.at nonlinear T i j) else .ub

/-- Members of `TMKinetics`, TMKinetics.hpp:23-43: type of the model, stiffness, expansivity, conductivity,
reference temperature and temperature scaling. -/
structure TmLaw (R : Type) where
  nonlinear : Bool
  stiff : Table R
  expand : Table R
  cond : Table R
  tref : R
  scale : R

/-- `VoigtMap::I`, VoigtMap.hpp:8-26. -/
def voigtI (d : Nat) : List Nat := if d = 1 then [1] else if d = 2 then [0, 1, 0] else [0, 1, 2, 1, 0, 0]

/-- `VoigtMap::J`, VoigtMap.hpp:8-26. -/
def voigtJ (d : Nat) : List Nat := if d = 1 then [1] else if d = 2 then [0, 1, 1] else [0, 1, 2, 2, 2, 1]

/-! ## Functors -/

/-- `TMKinematics::operator()`, TMKinematics.hpp:28-77.  The loops for the strain are those of
`Strain::operator()`. -/
def tmKinematics (d ndof cell : Nat) (strn tgrad state : V2 R) (g : V3 R) : Res (V2 R × V2 R) := do
  let strn ← strain d ndof cell strn state g
  let tgrad ← forRange 0 d tgrad fun k tgrad => do
    let tgrad ← vwr2 tgrad cell k 0
    forRange 0 (d + 1) tgrad fun n tgrad => do
      let s ← vrd2 state cell (n * ndof + d)
      let b ← vrd3 g cell n k
      accum2 tgrad cell k (s * b)
  pure (strn, tgrad)

/-- The local array `tstrain`, TMKinetics.hpp:89-93 and 117-121. -/
def thermalStrain (d : Nat) (L : TmLaw R) (T : R) : Res (List R) :=
  forRange 0 d (List.replicate (numVoigt d) 0) fun i ts => do
    let I ← rd (voigtI d) i
    let J ← rd (voigtJ d) i
    let a ← L.expand.read L.nonlinear T I J
    wr ts i (L.scale * a * (T - L.tref))

/-- `TMKinetics::operator()`, TMKinetics.hpp:74-145.  The branches for the linear and the nonlinear model are
alike but for the tensors that are read. -/
def tmKinetics (d : Nat) (L : TmLaw R) (cell : Nat) (stress flux strn tgrad : V2 R) (temp : List R) :
    Res (V2 R × V2 R) := do
  let T ← rd temp cell
  let ts ← thermalStrain d L T
  let stress ← forRange 0 (numVoigt d) stress fun i stress => do
    let stress ← vwr2 stress cell i 0
    forRange 0 (numVoigt d) stress fun j stress => do
      let e ← vrd2 strn cell j
      let t ← rd ts j
      let c ← L.stiff.read L.nonlinear T i j
      accum2 stress cell i ((e - t) * c)
  let flux ← forRange 0 d flux fun i flux => do
    let flux ← vwr2 flux cell i 0
    forRange 0 d flux fun j flux => do
      let g ← vrd2 tgrad cell j
      let k ← L.cond.read L.nonlinear T i j
      accum2 flux cell i (L.scale * L.scale * g * k)
  pure (stress, flux)

/-! ## Residuals -/

/-- Members of `ThermoelastostaticResidual` and `TransientThermomechResidual`: cubature weight and values of
the basis at the point, material, density and heat capacity (transient only), penalty function, body loads
(steady only), names of the output. -/
structure Tm (R : Type) where
  d : Nat
  cubWeight : R
  basis : List R
  law : TmLaw R
  mass : MassLaw R
  pen : R → R
  bodyLoads : List (BodyLoad R)
  plottable : List String

/-- Views allocated by the two functions `evaluate`. -/
structure MViews (R : Type) where
  grad : V3 R
  vol : List R
  strain : V2 R
  tgrad : V2 R
  stress : V2 R
  flux : V2 R
  temp : List R
  rate : List R
  heat : List R

/-- Freshly allocated views, ThermoelastostaticResidual.hpp:151-163 and
TransientThermomechResidual.hpp:149-158. -/
def MViews.new (d nc : Nat) : MViews R :=
  ⟨⟨nc, d + 1, d, fun _ _ _ => 0⟩, List.replicate nc 0, ⟨nc, numVoigt d, fun _ _ => 0⟩, ⟨nc, d, fun _ _ => 0⟩,
    ⟨nc, numVoigt d, fun _ _ => 0⟩, ⟨nc, d, fun _ _ => 0⟩, List.replicate nc 0, List.replicate nc 0,
    List.replicate nc 0⟩

variable [Div R] (fabs : R → R)

/-- Body of the first loop of the steady residual, ThermoelastostaticResidual.hpp:168-183, and first half of
the loop of the transient one, TransientThermomechResidual.hpp:186-198: gradients, volume, strain and
temperature gradient, temperature, stress and flux. -/
def Tm.front (P : Tm R) (state : V2 R) (config : V3 R) (c : Nat) (w : MViews R) : Res (MViews R) := do
  let (g, v) ← computeGradient fabs P.d c w.grad config w.vol
  let x ← rd v c
  let v ← wr v c (x * P.cubWeight)
  let (e, tg) ← tmKinematics P.d (P.d + 1) c w.strain w.tgrad state g
  let T ← interpolate1 (P.d + 1) (P.d + 1) P.d c P.basis state w.temp
  let (σ, q) ← tmKinetics P.d P.law c w.stress w.flux e tg T
  pure ⟨g, v, e, tg, σ, q, T, w.rate, w.heat⟩

/-- Body of the second loop of the steady residual, ThermoelastostaticResidual.hpp:187-199, and second part of
the loop of the transient one, TransientThermomechResidual.hpp:200-211: weighting and divergence. -/
def Tm.back (P : Tm R) (table : V2 Nat) (control : V2 R) (c : Nat) (s : MViews R × V2 R) :
    Res (MViews R × V2 R) := do
  let w := s.1
  let σ ← applyWeighting (P.d + 1) (numVoigt P.d) P.pen c w.stress control
  let q ← applyWeighting (P.d + 1) P.d P.pen c w.flux control
  let out ← stressDivergence P.d (P.d + 1) 0 table c s.2 σ w.grad w.vol 1
  let out ← fluxDivergence P.d (P.d + 1) P.d c out q w.grad w.vol 1
  pure ({ w with stress := σ, flux := q }, out)

/-- What the steady residual stores as output, ThermoelastostaticResidual.hpp:206-209. -/
def Tm.staticPlots (P : Tm R) (w : MViews R) : List (String × V2 R) :=
  (if "strain" ∈ P.plottable then [("strain", w.strain)] else []) ++
  (if "tgrad" ∈ P.plottable then [("tgrad", w.tgrad)] else []) ++
  (if "stress" ∈ P.plottable then [("stress", w.stress)] else []) ++
  (if "flux" ∈ P.plottable then [("flux", w.flux)] else [])

/-- `ThermoelastostaticResidual::evaluate`, ThermoelastostaticResidual.hpp:126-211: the result and what is
stored as output.  `init` is the uninitialised index table of `StressDivergence`. -/
def Tm.static (P : Tm R) (init : Nat → Nat → Nat) (sched : Nat → List Nat) (cells : List Nat)
    (state control : V2 R) (config : V3 R) (result : V2 R) : Res (V2 R × List (String × V2 R)) := do
  let table ← voigtTable P.d init
  let w ← parFor (sched 0) (MViews.new P.d cells.length) (P.front fabs state config)
  let (w, result) ← parFor (sched 1) (w, result) (P.back table control)
  let (result, _) ← P.bodyLoads.foldlM (fun (s : V2 R × Nat) L => do
      let y ← L.get P.d (P.d + 1) cells (sched s.2) control s.1 (-1)
      pure (y, s.2 + 1)) (result, 2)
  pure (result, P.staticPlots w)

/-- Body of the loop of the transient residual, TransientThermomechResidual.hpp:183-231. -/
def Tm.transientCell (P : Tm R) (table : V2 Nat) (state rate control : V2 R) (config : V3 R) (c : Nat)
    (s : MViews R × V2 R) : Res (MViews R × V2 R) := do
  let w ← P.front fabs state config c s.1
  let (w, out) ← P.back table control c (w, s.2)
  let r ← interpolate1 (P.d + 1) (P.d + 1) P.d c P.basis rate w.rate
  let e ← P.mass.content c w.heat r w.temp
  let e ← applyWeighting1 (P.d + 1) P.pen c e control
  let out ← project1 (P.d + 1) (P.d + 1) P.d c w.vol P.basis e out 1
  pure ({ w with rate := r, heat := e }, out)

/-- What the transient residual stores as output, TransientThermomechResidual.hpp:233-234. -/
def Tm.transientPlots (P : Tm R) (w : MViews R) : List (String × V2 R) :=
  (if "strain" ∈ P.plottable then [("strain", w.strain)] else []) ++
  (if "stress" ∈ P.plottable then [("stress", w.stress)] else [])

/-- The output map of the problem, `DataMap::scalarMultiVectors`, PlatoStaticsTypes.hpp:76: names and views. -/
abbrev OutMap (R : Type) := List (String × V2 R)

/-- `toMap` for a view without a domain, ToMap.hpp:112-122: the entry becomes the view. -/
def OutMap.store (m : OutMap R) (e : String × V2 R) : OutMap R := e :: m.filter fun f => f.1 ≠ e.1

/-- `DataMap::scalarMultiVectors.at`. -/
def OutMap.entry (m : OutMap R) (name : String) : Option (V2 R) := (m.find? fun f => f.1 = name).map (·.2)

/-- `TransientThermomechResidual::evaluate`, TransientThermomechResidual.hpp:133-235. -/
def Tm.transient (P : Tm R) (init : Nat → Nat → Nat) (order : List Nat) (nc : Nat)
    (state rate control : V2 R) (config : V3 R) (result : V2 R) : Res (V2 R × List (String × V2 R)) := do
  let table ← voigtTable P.d init
  let (w, result) ← parFor order (MViews.new P.d nc, result)
    (P.transientCell fabs table state rate control config)
  pure (result, P.transientPlots w)

/-- The steady residual of every domain as evaluator of the elliptic vector function; without natural
boundary conditions `evaluate_boundary` leaves the result as it is
(ThermoelastostaticResidual.hpp:213-233). -/
def thermoelastic (M : FeModel) (P : Nat → Tm R) (init : Nat → Nat → Nat → Nat) (sch : Nat → Nat → List Nat) :
    Evaluator R := fun k s z x r =>
  match M.part k with
  | some cells => do
    let (r, _) ← (P k).static fabs (init k) (sch k) cells s z x r
    pure r
  | none => .ok r

/-- The transient residual as evaluator of the parabolic vector function; `evaluate_boundary`
(TransientThermomechResidual.hpp:237-257) without natural boundary conditions. -/
def thermomech (M : FeModel) (P : Nat → Tm R) (init : Nat → Nat → Nat → Nat) (sch : Nat → List Nat) :
    ParEvaluator R := fun k s v z x r =>
  match M.part k with
  | some cells => do
    let (r, _) ← (P k).transient fabs (init k) (sch k) cells.length s v z x r
    pure r
  | none => .ok r

end Plato.Tm
