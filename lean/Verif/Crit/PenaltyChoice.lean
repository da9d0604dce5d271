import Verif.Crit.PenaltyChoiceModel

/-!
# The penalty function of a criterion is the one given in its list (C114)

The specification is a table of the criteria and penalties that an input can ask for, and the formulas of the penalties
with the numbers of the list `Criteria / name / Penalty Function`.
-/

namespace Plato.Crit.Choice
open Plato

/-- The penalties by their names in the input. -/
inductive Named : String → Kind → Prop where
  | simp : Named "SIMP" .simp
  | ramp : Named "RAMP" .ramp
  | heaviside : Named "Heaviside" .heaviside
  | noPenalty : Named "NoPenalty" .noPenalty

/-- The criteria with a penalty function, by physics and name, and whether `NoPenalty` can be asked for. -/
inductive Offered : Physics → String → String → Bool → Prop where
  | volume : Offered .geometrical "Volume" "Geometric::Volume" false
  | heatEnergy : Offered .thermal "Internal Thermal Energy" "Elliptic::InternalThermalEnergy" false
  | flux : Offered .thermal "Flux P-Norm" "Elliptic::FluxPNorm" false
  | heatEnergyT : Offered .thermalParabolic "Internal Thermal Energy" "Parabolic::InternalThermalEnergy" false
  | average : Offered .thermalParabolic "Temperature Average" "Parabolic::TemperatureAverage" false
  | emEnergy : Offered .electromechanics "Internal Electroelastic Energy" "Elliptic::InternalElectroelasticEnergy" true
  | emStress : Offered .electromechanics "Stress P-Norm" "Elliptic::EMStressPNorm" true
  | tmEnergy : Offered .thermomechanics "Internal Thermoelastic Energy" "Elliptic::InternalThermoelasticEnergy" false
  | tmVolume : Offered .thermomechanics "Volume" "Elliptic::Volume" false
  | tmEnergyT : Offered .thermomechanicsParabolic "Internal Thermoelastic Energy"
      "Parabolic::InternalThermoelasticEnergy" false
  | dynEnergy : Offered .hyperbolic "Internal Elastic Energy" "Hyperbolic::InternalElasticEnergy" false
  | dynStress : Offered .hyperbolic "Stress P-Norm" "Hyperbolic::StressPNorm" false
  | energy : Offered .mechanics "Internal Elastic Energy" "Elliptic::InternalElasticEnergy" true
  | stress : Offered .mechanics "Stress P-Norm" "Elliptic::StressPNorm" true
  | effective : Offered .mechanics "Effective Energy" "Elliptic::EffectiveEnergy" true
  | stabEnergy : Offered .stabilized "Internal Elastic Energy" "StabilizedElastostaticEnergy" true

/-- The physics in which a missing type means `SIMP`. -/
inductive Defaulted : Physics → Prop where
  | electromechanics : Defaulted .electromechanics
  | thermomechanics : Defaulted .thermomechanics
  | mechanics : Defaulted .mechanics

/-- A number given for the penalty of a criterion. -/
noncomputable def given (p : Input) (name key : String) (dflt : ℝ) : ℝ :=
  (p.num ["Criteria", name, "Penalty Function", key]).getD dflt

/-- The weight of a density asked for by the input. -/
noncomputable def asked (p : Input) (name : String) : Kind → ℝ → ℝ
  | .simp, x =>
    let m := given p name "Minimum Value" (1 / 10 ^ 9)
    m + (1 - m) * x ^ given p name "Exponent" 3
  | .ramp, x =>
    let m := given p name "Minimum Value" 0
    m + (1 - m) * x / (1 + given p name "Exponent" 3 * (1 - x))
  | .heaviside, x =>
    let m := given p name "Minimum Value" 0
    let l := given p name "Regularization Length" 1
    if x ≤ -l then m
    else if l ≤ x then 1
    else m + (1 - m) * (1 / 2 * (1 + Real.sin (Real.pi * x / (2 * l)))) ^ given p name "Exponent" 1
  | .noPenalty, _ => 1

/-- The input asks for the criterion `func` under this name. -/
def AsksFor (p : Input) (name func : String) : Prop := p.str ["Criteria", name, "Scalar Function Type"] = some func

/-- The type of the penalty in the list of the criterion. -/
def penaltyName (p : Input) (name : String) : Option String := p.str ["Criteria", name, "Penalty Function", "Type"]

variable {other : String → Res (Option Criterion)} {p : Input} {name func cls t : String} {ph : Physics} {k : Kind}

/-- **C114.** In all physics but stabilised mechanics, the criterion evaluated is the one asked for, and weights
densities by the penalty given in the list of the criterion, with its numbers. -/
theorem C114_chosen_partial {np : Bool} (ho : Offered ph func cls np) (hs : ph ≠ .stabilized) (hf : AsksFor p name func)
    (ht : penaltyName p name = some t) (hk : Named t k) (hn : np = false → t ≠ "NoPenalty") :
    ∃ c, (ph.initializeCriterion other p name >>= deref) = .ok c ∧ c.cls = cls ∧ c.kind = k ∧
      ∀ x, c.weight x = asked p name k x := by
  unfold AsksFor at hf
  unfold penaltyName at ht
  refine ⟨⟨cls, k, k.data (((p.sub "Criteria").sub name).sub "Penalty Function")⟩, ?_, rfl, rfl, ?_⟩
  · cases ho <;> cases hk <;>
      simp_all [Physics.initializeCriterion, Physics.create, Input.textD, Input.sub, Input.text, deref, make, three, four,
        fourOrNull, geometrical, thermal, thermalParabolic, electromechanics, thermomechanics,
        thermomechanicsParabolic, hyperbolic, mechanics, Res.ok_bind]
  · intro x
    cases hk <;> simp only [Criterion.weight, asked] <;> rfl

/-- **C114.** In electromechanics, thermomechanics and mechanics, a criterion without a type of penalty is weighted by
`SIMP` with the numbers of its list. -/
theorem C114_default {np : Bool} (ho : Offered ph func cls np) (hd : Defaulted ph) (hf : AsksFor p name func)
    (ht : penaltyName p name = none) :
    ∃ c, (ph.initializeCriterion other p name >>= deref) = .ok c ∧ c.cls = cls ∧ c.kind = .simp ∧
      ∀ x, c.weight x = asked p name .simp x := by
  unfold AsksFor at hf
  unfold penaltyName at ht
  refine ⟨⟨cls, .simp, Kind.simp.data (((p.sub "Criteria").sub name).sub "Penalty Function")⟩, ?_, rfl, rfl, ?_⟩
  · cases ho <;> cases hd <;>
      simp_all [Physics.initializeCriterion, Physics.create, Input.textD, Input.sub, Input.text, deref, make, three, four,
        fourOrNull, electromechanics, thermomechanics, mechanics, Res.ok_bind]
  · intro x
    simp only [Criterion.weight, asked]; rfl

/-- **C114.** In the other physics it is an error. -/
theorem C114_missing {np : Bool} (ho : Offered ph func cls np) (hd : ¬ Defaulted ph) (hs : ph ≠ .stabilized)
    (hf : AsksFor p name func) (ht : penaltyName p name = none) :
    ∃ m, ph.initializeCriterion other p name = .err m := by
  unfold AsksFor at hf
  unfold penaltyName at ht
  have h1 : ph ≠ .electromechanics := by rintro rfl; exact hd .electromechanics
  have h2 : ph ≠ .thermomechanics := by rintro rfl; exact hd .thermomechanics
  have h3 : ph ≠ .mechanics := by rintro rfl; exact hd .mechanics
  refine ⟨"parameter does not exist", ?_⟩
  cases ho <;>
    simp_all [Physics.initializeCriterion, Physics.create, Input.textD, Input.sub, Input.text, geometrical, thermal,
      thermalParabolic, thermomechanicsParabolic, hyperbolic, throwErr] <;> rfl

/-- **C114.** In all physics but mechanics and stabilised mechanics, a type of penalty that is not offered is an
error. -/
theorem C114_unknown_partial {np : Bool} (ho : Offered ph func cls np) (hs : ph ≠ .stabilized) (hm : ph ≠ .mechanics)
    (hf : AsksFor p name func) (ht : penaltyName p name = some t)
    (hu : ∀ k, Named t k → np = false ∧ t = "NoPenalty") :
    ∃ m, ph.initializeCriterion other p name = .err m := by
  unfold AsksFor at hf
  unfold penaltyName at ht
  refine ⟨"Unknown 'Type' specified in 'Penalty Function' ParameterList", ?_⟩
  have h1 : t ≠ "SIMP" := fun h => by subst h; exact absurd (hu _ .simp).2 (by simp)
  have h2 : t ≠ "RAMP" := fun h => by subst h; exact absurd (hu _ .ramp).2 (by simp)
  have h3 : t ≠ "Heaviside" := fun h => by subst h; exact absurd (hu _ .heaviside).2 (by simp)
  have h4 : np = true → t ≠ "NoPenalty" := fun hn h => by subst h; simp [hn] at hu; exact hu _ .noPenalty
  cases ho <;>
    simp_all [Physics.initializeCriterion, Physics.create, Input.textD, Input.sub, Input.text, three, four,
      geometrical, thermal, thermalParabolic, electromechanics, thermomechanics, thermomechanicsParabolic, hyperbolic,
      Res.ok_bind, throwErr]

/-- **C114 is false for the errors of mechanics.** There a type of penalty that is not known is accepted by the
constructor, for every criterion with a penalty; its evaluation dereferences a null pointer. -/
theorem C114_unknown_false {np : Bool} (ho : Offered .mechanics func cls np) (hf : AsksFor p name func)
    (ht : penaltyName p name = some t) (hu : ∀ k, ¬ Named t k) :
    Physics.mechanics.initializeCriterion other p name = .ok none ∧
      (Physics.mechanics.initializeCriterion other p name >>= deref) = .ub := by
  unfold AsksFor at hf
  unfold penaltyName at ht
  have h1 : t ≠ "SIMP" := fun h => by subst h; exact hu _ .simp
  have h2 : t ≠ "RAMP" := fun h => by subst h; exact hu _ .ramp
  have h3 : t ≠ "Heaviside" := fun h => by subst h; exact hu _ .heaviside
  have h4 : t ≠ "NoPenalty" := fun h => by subst h; exact hu _ .noPenalty
  have e : Physics.mechanics.initializeCriterion other p name = .ok none := by
    cases ho <;>
      simp_all [Physics.initializeCriterion, Physics.create, Input.textD, Input.sub, mechanics, fourOrNull]
  refine ⟨e, ?_⟩
  rw [e]; rfl

/-- **C114 is false for stabilised mechanics.** Whatever penalty the list of the criterion asks for, if there is no list
of this name beside "Criteria", the weight is that of `SIMP` with its default numbers. -/
theorem C114_stabilised_false (hf : AsksFor p name "Internal Elastic Energy")
    (hstr : ∀ q, p.str (name :: q) = none) (hnum : ∀ q, p.num (name :: q) = none) :
    ∃ c, (Physics.stabilized.initializeCriterion other p name >>= deref) = .ok c ∧ c.kind = .simp ∧
      ∀ x, c.weight x = 1 / 10 ^ 9 + (1 - 1 / 10 ^ 9) * x ^ (3 : ℝ) := by
  unfold AsksFor at hf
  refine ⟨⟨"StabilizedElastostaticEnergy", .simp, Kind.simp.data ((p.sub name).sub "Penalty Function")⟩, ?_, rfl, ?_⟩
  · simp [Physics.initializeCriterion, Physics.create, Input.textD, Input.sub, deref, make, fourOrNull, stabilized, hf,
      hstr, Res.ok_bind]
  · intro x
    simp [Criterion.weight, Plato.simp, Kind.data, Input.numD, Input.sub, hnum]

/-! ## Inputs that meet the hypotheses -/

/-- An input with the criterion "energy" and a penalty of type `t` with exponent `e`. -/
noncomputable def sample (func t : String) (e : ℝ) : Input where
  str q := if q = ["Criteria", "energy", "Scalar Function Type"] then some func
    else if q = ["Criteria", "energy", "Penalty Function", "Type"] then some t else none
  num q := if q = ["Criteria", "energy", "Penalty Function", "Exponent"] then some e else none

/-- `RAMP` with exponent 5 in mechanics. -/
example : ∃ c, (Physics.mechanics.initializeCriterion other (sample "Internal Elastic Energy" "RAMP" 5) "energy" >>=
    deref) = .ok c ∧ ∀ x, c.weight x = 0 + (1 - 0) * x / (1 + 5 * (1 - x)) := by
  obtain ⟨c, h, -, -, hw⟩ := C114_chosen_partial (other := other) (p := sample "Internal Elastic Energy" "RAMP" 5)
    (name := "energy") .energy (by simp) (by simp [AsksFor, sample]) (by simp [penaltyName, sample]) .ramp (by simp)
  refine ⟨c, h, fun x => ?_⟩
  rw [hw]
  simp [asked, given, sample]

/-- `NoPenalty` for the energy of heat conduction: an error. -/
example : ∃ m, Physics.thermal.initializeCriterion other (sample "Internal Thermal Energy" "NoPenalty" 5) "energy" =
    .err m :=
  C114_unknown_partial .heatEnergy (by simp) (by simp) (by simp [AsksFor, sample]) (t := "NoPenalty")
    (by simp [penaltyName, sample]) fun k hk => by simp

/-- A misspelt penalty in mechanics. -/
example : (Physics.mechanics.initializeCriterion other (sample "Stress P-Norm" "Ramp" 5) "energy" >>= deref) = .ub :=
  (C114_unknown_false .stress (by simp [AsksFor, sample]) (t := "Ramp") (by simp [penaltyName, sample])
    (fun k hk => by generalize h : "Ramp" = s at hk; cases hk <;> simp at h)).2

/-- The same input in stabilised mechanics: a density of one half weighs about an eighth, and one seventh was asked
for. -/
example : ∃ c, (Physics.stabilized.initializeCriterion other (sample "Internal Elastic Energy" "RAMP" 5) "energy" >>=
    deref) = .ok c ∧ c.weight (1 / 2) ≠ asked (sample "Internal Elastic Energy" "RAMP" 5) "energy" .ramp (1 / 2) := by
  obtain ⟨c, h, -, hw⟩ := C114_stabilised_false (other := other) (p := sample "Internal Elastic Energy" "RAMP" 5)
    (name := "energy") (by simp [AsksFor, sample]) (by simp [sample]) (by simp [sample])
  refine ⟨c, h, ?_⟩
  rw [hw, show (3 : ℝ) = ((3 : ℕ) : ℝ) by norm_num, Real.rpow_natCast]
  simp [asked, given, sample]
  norm_num

end Plato.Crit.Choice
