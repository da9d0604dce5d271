import Mathlib.Tactic.Linarith
import Mathlib.Algebra.Order.Field.Rat
import Verif.Common.Res

/-!
# The Newton-Raphson driver (C32)

Modelled sources: `/repo/src/NewtonRaphsonSolver.hpp` (stopping logic and `solve`),
`/repo/src/NewtonRaphsonUtilities.hpp`.

No law of arithmetic is assumed about floating point numbers: `Flt` only names the operations used,
so that the theorems cover NaN, infinities and rounding.  What is evaluated and updated in an
iteration is a parameter (`NrSys`); the plasticity problem instantiates it in
`Verif/Plastic/Model.lean`.  The diagnostics file is left out.
-/

namespace Plato

/-- The floating point operations used by the driver; no laws. -/
class Flt (F : Type) where
  sub : F → F → F
  div : F → F → F
  abs : F → F
  /-- `a < b` -/
  lt : F → F → Bool
  /-- `a >= b` -/
  ge : F → F → Bool
  /-- `std::isfinite` -/
  finite : F → Bool
  /-- `std::numeric_limits<Plato::Scalar>::max()` -/
  huge : F
  /-- `1e20` -/
  big : F

/-- `NewtonRaphson::stop_t`, /repo/src/NewtonRaphsonUtilities.hpp:25-33. -/
inductive StopCrit
  | didNotConverge | maxIterations | normMeasure | currentNorm | nanNorm | infiniteNorm
  deriving DecidableEq

/-- The fields of `NewtonRaphsonOutputData` that take part in the control flow,
/repo/src/NewtonRaphsonUtilities.hpp:78-104. -/
structure NrOut (F : Type) where
  cur : F
  meas : F
  ref : F

/-- Parameters of the solver, /repo/src/NewtonRaphsonSolver.hpp:46-64; `relative` is
`mStopMeasure == RELATIVE_RESIDUAL_NORM`. -/
structure NrParams (F : Type) where
  tol : F
  resTol : F
  maxIter : Int
  relative : Bool

section
variable {F : Type} [Flt F]

/-- Constructor of `NewtonRaphsonOutputData`, /repo/src/NewtonRaphsonUtilities.hpp:93-103. -/
def NrOut.init : NrOut F := ⟨Flt.huge, Flt.huge, Flt.huge⟩

/-- `compute_absolute_residual_norm_error`, `compute_relative_residual_norm_error`,
/repo/src/NewtonRaphsonUtilities.hpp:226-295, and the switch
/repo/src/NewtonRaphsonSolver.hpp:413-433. -/
def computeStopping (p : NrParams F) (iter : Nat) (o : NrOut F) : Res (NrOut F) :=
  if Flt.finite o.cur = false then throwErr "Current norm value is not a finite number."
  else if Flt.finite o.ref = false then throwErr "Reference norm value is not a finite number."
  else if iter = 0 then Res.ok { o with ref := o.cur }
  else
    let d := Flt.abs (Flt.sub o.ref o.cur)
    let m := if p.relative then Flt.div d (Flt.abs o.cur) else d
    Res.ok { o with meas := m, ref := o.cur }

/-- `checkStoppingCriterion`, /repo/src/NewtonRaphsonSolver.hpp:376-407; `none` = go on. -/
def checkStopping (p : NrParams F) (iter : Nat) (o : NrOut F) : Option StopCrit :=
  if Flt.lt o.meas p.tol then some .normMeasure
  else if Flt.lt o.cur p.resTol then some .currentNorm
  else if Flt.ge o.cur Flt.big then some .infiniteNorm
  else if (iter : Int) ≥ p.maxIter then some .maxIterations
  else if ¬ Flt.finite o.cur ∨ ¬ Flt.finite o.meas then some .nanNorm
  else none

/-- `didNewtonRaphsonSolverConverge`, /repo/src/NewtonRaphsonSolver.hpp:349-370. -/
def didConverge : StopCrit → Bool
  | .normMeasure => true
  | .currentNorm => true
  | _ => false

/-- What an iteration evaluates (norm of the constrained residual, and the system) and how it
updates the states. -/
structure NrSys (F σ β : Type) where
  eval : Nat → σ → Res (F × β)
  upd : Nat → β → σ → Res σ

/-- Outcome of the loop; `norms` lists the evaluated norms, latest first. -/
structure NrResult (F σ : Type) where
  state : σ
  crit : StopCrit
  out : NrOut F
  norms : List F

/-- The loop `while(true)` of `solve`, /repo/src/NewtonRaphsonSolver.hpp:589-624, entered with
`mCurrentSolverIter = iter`, cut off after `fuel` passes (`none`). -/
def nrLoop {σ β : Type} (p : NrParams F) (S : NrSys F σ β) :
    Nat → Nat → NrOut F → List F → σ → Res (Option (NrResult F σ))
  | 0, _, _, _, _ => Res.ok none
  | fuel + 1, iter, o, norms, s => do
    let e ← S.eval iter s
    let o ← computeStopping p iter { o with cur := e.1 }
    match checkStopping p iter o with
    | some c => Res.ok (some ⟨s, c, o, e.1 :: norms⟩)
    | none => do
      let s ← S.upd iter e.2 s
      nrLoop p S fuel (iter + 1) o (e.1 :: norms) s

/-- The change measure of two successive norms. -/
def changeMeasure (p : NrParams F) (prev cur : F) : F :=
  if p.relative then Flt.div (Flt.abs (Flt.sub prev cur)) (Flt.abs cur)
  else Flt.abs (Flt.sub prev cur)

/-- Independent reading of a log of norms: what "residual below tolerance or change below
tolerance at the last evaluation" means. -/
def LogConverged (p : NrParams F) : List F → Prop
  | [] => False
  | [a] => Flt.lt Flt.huge p.tol = true ∨ Flt.lt a p.resTol = true
  | a :: b :: _ => Flt.lt (changeMeasure p b a) p.tol = true ∨ Flt.lt a p.resTol = true

theorem checkStopping_max {p : NrParams F} {iter : Nat} {o : NrOut F} (h : p.maxIter ≤ iter) :
    checkStopping p iter o ≠ none := by
  unfold checkStopping
  split_ifs <;> simp_all

/-- **C32**, termination: with `maximum number of iterations` at most `m` the loop ends after at
most `m+1` evaluations of the residual, whatever the residual norms are.  (Cutting it off after
`m+1` passes never has an effect, and the log has at most `m+1` entries.) -/
theorem C32_terminates {σ β : Type} (p : NrParams F) (S : NrSys F σ β) (m : Nat)
    (hm : p.maxIter ≤ m) (fuel : Nat) (hf : m + 1 ≤ fuel) (s : σ) :
    nrLoop p S fuel 0 NrOut.init [] s ≠ Res.ok none ∧
    ∀ r, nrLoop p S fuel 0 NrOut.init [] s = Res.ok (some r) → r.norms.length ≤ m + 1 := by
  have key : ∀ (fuel iter : Nat) (o : NrOut F) (l : List F) (s : σ), iter ≤ m → l.length = iter →
      m + 1 ≤ iter + fuel → nrLoop p S fuel iter o l s ≠ Res.ok none ∧
      ∀ r, nrLoop p S fuel iter o l s = Res.ok (some r) → r.norms.length ≤ m + 1 := by
    intro fuel
    induction fuel with
    | zero => intro iter o l s h1 h2 h3; omega
    | succ fuel ih =>
      intro iter o l s h1 h2 h3
      rw [nrLoop]
      rcases he : S.eval iter s with e | msg | _
      swap
      · simp
      swap
      · simp
      rw [Res.ok_bind]
      rcases hc : computeStopping p iter { o with cur := e.1 } with o' | msg | _
      swap
      · simp
      swap
      · simp
      rw [Res.ok_bind]
      rcases hk : checkStopping p iter o' with _ | c
      · simp only
        have hlt : iter < m := by
          by_contra h
          exact checkStopping_max (show p.maxIter ≤ (iter : Int) by omega) hk
        rcases hu : S.upd iter e.2 s with s' | msg | _
        swap
        · simp
        swap
        · simp
        rw [Res.ok_bind]
        exact ih (iter + 1) o' _ s' (by omega) (by simp [h2]) (by omega)
      · simp only [ne_eq, Res.ok.injEq, reduceCtorEq, not_false_eq_true, true_and,
          Option.some.injEq]
        rintro r rfl
        simp only [List.length_cons]
        omega
  exact key fuel 0 _ [] s (Nat.zero_le _) rfl (by omega)

/-- The result does not depend on the cut-off: it is the result of the `while(true)` loop. -/
theorem nrLoop_fuel {σ β : Type} {p : NrParams F} {S : NrSys F σ β} :
    ∀ (fuel iter : Nat) (o : NrOut F) (l : List F) (s : σ) (r : NrResult F σ),
      nrLoop p S fuel iter o l s = Res.ok (some r) → ∀ f, fuel ≤ f →
        nrLoop p S f iter o l s = Res.ok (some r) := by
  intro fuel
  induction fuel with
  | zero => intro iter o l s r h; cases h
  | succ fuel ih =>
    intro iter o l s r h f hf
    obtain ⟨f, rfl⟩ : ∃ g, f = g + 1 := ⟨f - 1, by omega⟩
    rw [nrLoop] at h ⊢
    rcases he : S.eval iter s with e | msg | _ <;> rw [he] at h
    swap
    · cases h
    swap
    · cases h
    rw [Res.ok_bind] at h ⊢
    rcases hc : computeStopping p iter { o with cur := e.1 } with o' | msg | _ <;> rw [hc] at h
    swap
    · cases h
    swap
    · cases h
    rw [Res.ok_bind] at h ⊢
    rcases hk : checkStopping p iter o' with _ | c <;> rw [hk] at h
    · simp only at h ⊢
      rcases hu : S.upd iter e.2 s with s' | msg | _ <;> rw [hu] at h
      swap
      · cases h
      swap
      · cases h
      rw [Res.ok_bind] at h ⊢
      exact ih _ _ _ _ _ h f (by omega)
    · exact h

/-- What holds when the loop has ended. -/
structure NrDone {σ β : Type} (p : NrParams F) (S : NrSys F σ β) (r : NrResult F σ) : Prop where
  /-- the latest norm is the norm evaluated at the returned state -/
  evaluated : ∃ e rest, r.norms = e.1 :: rest ∧ S.eval (r.norms.length - 1) r.state = Res.ok e
  /-- the verdict, read off the log -/
  verdict : didConverge r.crit = true ↔ LogConverged p r.norms
  /-- the latest norm is finite -/
  finite : ∀ a rest, r.norms = a :: rest → Flt.finite a = true

theorem nrLoop_done {σ β : Type} {p : NrParams F} {S : NrSys F σ β} :
    ∀ (fuel iter : Nat) (o : NrOut F) (l : List F) (s : σ) (r : NrResult F σ), l.length = iter →
      (match l with
        | [] => o.meas = Flt.huge
        | a :: _ => o.ref = a) →
      nrLoop p S fuel iter o l s = Res.ok (some r) → NrDone p S r := by
  intro fuel
  induction fuel with
  | zero => intro iter o l s r _ _ h; cases h
  | succ fuel ih =>
    intro iter o l s r hl href h
    rw [nrLoop] at h
    rcases he : S.eval iter s with e | msg | _ <;> rw [he] at h
    swap
    · cases h
    swap
    · cases h
    rw [Res.ok_bind] at h
    rcases hc : computeStopping p iter { o with cur := e.1 } with o' | msg | _ <;> rw [hc] at h
    swap
    · cases h
    swap
    · cases h
    rw [Res.ok_bind] at h
    have hfin : Flt.finite e.1 = true := by
      unfold computeStopping at hc
      by_contra hne
      rw [if_pos (by simpa using hne)] at hc
      cases hc
    have ho' : o'.cur = e.1 ∧ o'.ref = e.1 ∧ o'.meas =
        (match l with
          | [] => Flt.huge
          | a :: _ => changeMeasure p a e.1) := by
      unfold computeStopping at hc
      split_ifs at hc with h1 h2 h3
      · cases hc
      · cases hc
      · have : l = [] := List.length_eq_zero_iff.1 (by omega)
        subst this
        cases hc
        exact ⟨rfl, rfl, href⟩
      all_goals
        cases hc
        rcases l with _ | ⟨a, l⟩
        · exact absurd hl (by simp; omega)
        · simp only at href
          refine ⟨rfl, rfl, ?_⟩
          simp only [changeMeasure, href, *]
          simp
    rcases hk : checkStopping p iter o' with _ | c <;> rw [hk] at h
    · simp only at h
      rcases hu : S.upd iter e.2 s with s' | msg | _ <;> rw [hu] at h
      swap
      · cases h
      swap
      · cases h
      rw [Res.ok_bind] at h
      exact ih _ _ _ _ _ (by simp [hl]) (by simpa using ho'.2.1) h
    · simp only [Res.ok.injEq, Option.some.injEq] at h
      subst h
      refine ⟨⟨e, l, rfl, by simpa [hl] using he⟩, ?_, ?_⟩
      · obtain ⟨h1, -, h3⟩ := ho'
        have hlog : LogConverged p (e.1 :: l) ↔
            (Flt.lt o'.meas p.tol = true ∨ Flt.lt o'.cur p.resTol = true) := by
          rw [h1, h3]
          rcases l with _ | ⟨a, l⟩ <;> rfl
        rw [hlog]
        unfold checkStopping at hk
        split_ifs at hk with a1 a2 a3 a4 a5 <;> cases hk <;> simp [didConverge, a1] <;> simp [a2]
      · intro a rest hr
        cases hr
        exact hfin

/-- **C32**, verdict: success is reported exactly if at the last evaluation the residual norm or
the change of the residual norm is below its tolerance; the last evaluation was made at the
returned state. -/
theorem C32_verdict {σ β : Type} {p : NrParams F} {S : NrSys F σ β} {fuel : Nat} {s : σ}
    {r : NrResult F σ} (h : nrLoop p S fuel 0 NrOut.init [] s = Res.ok (some r)) :
    NrDone p S r := nrLoop_done fuel 0 _ [] s r rfl rfl h

end

/-- Exact arithmetic as an instance, for the examples. -/
instance : Flt ℚ where
  sub a b := a - b
  div a b := a / b
  abs a := |a|
  lt a b := decide (a < b)
  ge a b := decide (a ≥ b)
  finite _ := true
  huge := 10 ^ 30
  big := 10 ^ 20

/-- Success does not mean a small residual: if the residual norm stagnates at any value between
the residual tolerance and 1e20, the second evaluation reports success. -/
theorem C32_stagnation (a : ℚ) (ha : 1 ≤ a) (hb : a < 10 ^ 20) :
    ∃ r, nrLoop (⟨1 / 100, 1 / 100, 10, false⟩ : NrParams ℚ)
      (⟨fun _ _ => Res.ok (a, ()), fun _ _ s => Res.ok s⟩ : NrSys ℚ Unit Unit)
      11 0 NrOut.init [] () = Res.ok (some r) ∧ didConverge r.crit = true ∧ r.norms = [a, a] := by
  have h1 : ¬ a < 1 / 100 := by linarith
  have h1' : ¬ a < (100 : ℚ)⁻¹ := by rw [← one_div]; exact h1
  have h2 : ¬ (10 : ℚ) ^ 20 ≤ a := not_le.2 hb
  refine ⟨⟨(), .normMeasure, ⟨a, 0, a⟩, [a, a]⟩, ?_, rfl, rfl⟩
  have h3 : ¬ (100000000000000000000 : ℚ) ≤ a := by norm_num at h2 ⊢; linarith
  norm_num [nrLoop, computeStopping, checkStopping, Flt.finite, Flt.lt, Flt.ge, Flt.abs, Flt.sub,
    Flt.huge, Flt.big, NrOut.init, h1, h1', h2, h3]

/-- The two theorems are not vacuous: a run of three evaluations. -/
example : ∃ r, nrLoop (⟨1 / 100, 1 / 100, 10, true⟩ : NrParams ℚ)
    (⟨fun i _ => Res.ok (if i = 0 then 8 else if i = 1 then 1 else 1 / 1000, ()),
      fun _ _ s => Res.ok s⟩ : NrSys ℚ Unit Unit)
    11 0 NrOut.init [] () = Res.ok (some r) ∧ r.norms = [1 / 1000, 1, 8] := by
  refine ⟨⟨(), .currentNorm, ⟨1 / 1000, 999, 1 / 1000⟩, [1 / 1000, 1, 8]⟩, ?_, rfl⟩
  norm_num [nrLoop, computeStopping, checkStopping, Flt.finite, Flt.lt, Flt.ge, Flt.abs, Flt.sub,
    Flt.huge, Flt.big, Flt.div, NrOut.init]

end Plato
