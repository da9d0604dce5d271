import Mathlib.Tactic.Linarith
import Verif.Vms.Model
import Verif.Time.Steady

/-!
# The stabilised problem: solves and iterations (C101)

The specification is the coupled system of the two equations a user of the formulation expects to
be solved: the equilibrium residual vanishes at the free degrees of freedom, the prescribed values
are taken, and the projected gradient belongs to the pressures of the same state.
-/

namespace Plato.Vms

open Matrix

variable {K ι ν π ζ : Type} [Field K] [Fintype ι] [DecidableEq ι] [Fintype ν] [Fintype π]

/-- Specification: a state with its projected gradient solves the equilibrium equations. -/
structure Equil (pde : Pde K ι π ζ) (con : Dirichlet K ι) (z : ζ → K) (u : ι → K) (pg : π → K) :
    Prop where
  prescribed : ∀ i v, con i = some v → u i = v
  free : ∀ i, con i = none → pde.value u pg z i = 0

/-- The residual is affine in the state. -/
def Pde.Affine (pde : Pde K ι π ζ) : Prop :=
  ∀ u du pg z, pde.value (u + du) pg z = pde.value u pg z + pde.gradU u pg z *ᵥ du

/-- The systems of the Newton loop have a solution. -/
def Problem.Regular (P : Problem K ι ν π ζ) (z : ζ → K) : Prop :=
  ∀ u pg, IsUnit (conMat P.con (P.pde.gradU u pg z)).det

theorem exact_unique {solve : LinSolver K ι} (hs : solve.Exact) {A : Matrix ι ι K}
    (hA : IsUnit A.det) (x y b : ι → K) : solve A x b = solve A y b := by
  have h1 := hs A x b hA
  have h2 := hs A y b hA
  have h3 : A⁻¹ *ᵥ (A *ᵥ solve A x b) = A⁻¹ *ᵥ (A *ᵥ solve A y b) := by rw [h1, h2]
  rwa [mulVec_mulVec, mulVec_mulVec, nonsing_inv_mul _ hA, one_mulVec, one_mulVec] at h3

namespace Problem
variable {P : Problem K ι ν π ζ}

omit [Fintype ν] in
/-- The initial guess of the solver does not matter. -/
theorem newtonPass_guess (hs : P.solve.Exact) {z : ζ → K} (hr : P.Regular z) (it : Nat)
    (s : Inner K ι ν π) (x : ι → K) :
    P.newtonPass z it s = P.newtonPass z it { s with inc := x } := by
  unfold newtonPass
  dsimp only
  rw [exact_unique hs (hr _ _) s.inc x]

omit [Fintype ν] in
theorem loop_guess (hs : P.solve.Exact) {z : ζ → K} (hr : P.Regular z) (n lo : Nat)
    (s : Inner K ι ν π) (x : ι → K) :
    (loopUp (P.newtonPass z) n lo s).u = (loopUp (P.newtonPass z) n lo { s with inc := x }).u := by
  cases n with
  | zero => rfl
  | succ n =>
    unfold loopUp
    rw [newtonPass_guess hs hr lo s x]

omit [Fintype ν] in
theorem step_self (z : ζ → K) (k : Nat) (s : St K ι ν π) :
    (P.step z k s).hist k = (loopUp (P.newtonPass z) P.numNewton 0 ⟨0, 0, 0, s.inc⟩).u := by
  simp [step, setStep]

omit [Fintype ν] in
theorem step_other (z : ζ → K) {k j : Nat} (h : j ≠ k) (s : St K ι ν π) :
    (P.step z k s).hist j = s.hist j := by
  simp [step, setStep, h]

omit [Fintype ν] in
/-- Every computed step is the state of one Newton loop. -/
theorem solution_step (hs : P.solve.Exact) {z : ζ → K} (hr : P.Regular z) (s : St K ι ν π) :
    (∀ k, 1 ≤ k → k < P.numSteps → (P.solution z s).hist k =
      (loopUp (P.newtonPass z) P.numNewton 0 ⟨0, 0, 0, 0⟩).u) ∧
    ∀ k, k = 0 ∨ P.numSteps ≤ k → (P.solution z s).hist k = s.hist k := by
  have key := loopUp_inv (body := P.step z)
    (fun j (t : St K ι ν π) =>
      (∀ k, 1 ≤ k → k < j → t.hist k =
        (loopUp (P.newtonPass z) P.numNewton 0 ⟨0, 0, 0, 0⟩).u) ∧
      ∀ k, k = 0 ∨ j ≤ k → t.hist k = s.hist k)
    (P.numSteps - 1) 1 { s with inc := 0 } ⟨by omega, fun _ _ => rfl⟩
    (by
      rintro j t hj - ⟨h1, h2⟩
      refine ⟨?_, ?_⟩
      · intro k hk1 hkj
        rcases Nat.lt_succ_iff_lt_or_eq.1 hkj with hlt | rfl
        · rw [step_other z (show k ≠ j by omega)]; exact h1 k hk1 hlt
        · rw [step_self]; exact loop_guess hs hr _ _ ⟨0, 0, 0, t.inc⟩ 0
      · intro k hk
        rw [step_other z (show k ≠ j by omega)]
        exact h2 k (by omega))
  refine ⟨fun k h1 h2 => key.1 k h1 (by omega), fun k hk => ?_⟩
  rcases hk with rfl | hk
  · exact key.2 0 (Or.inl rfl)
  · by_cases h0 : k = 0
    · subst h0; exact key.2 0 (Or.inl rfl)
    · exact key.2 k (Or.inr (by omega))

end Problem

omit [Fintype ν] in
/-- **C101** (steps): whatever was stored before, all steps from the first one on hold the same
state; step zero is never written. -/
theorem C101_steps (P : Problem K ι ν π ζ) (z : ζ → K) (s : St K ι ν π) (hs : P.solve.Exact)
    (hr : P.Regular z) :
    (∀ j k, 1 ≤ j → j < P.numSteps → 1 ≤ k → k < P.numSteps →
      (P.solution z s).hist j = (P.solution z s).hist k) ∧
    (P.solution z s).hist 0 = s.hist 0 := by
  obtain ⟨h1, h2⟩ := Problem.solution_step hs hr s
  exact ⟨fun j k a b c d => by rw [h1 j a b, h1 k c d], h2 0 (Or.inl rfl)⟩

omit [Fintype ν] in
/-- **C101** is false for the default number of steps: one step is requested when the input has no
list "Time Stepping", and then nothing is solved. -/
theorem C101_default_false (P : Problem K ι ν π ζ) (z : ζ → K) (s : St K ι ν π)
    (h1 : P.numSteps = 1) : (P.solution z s).hist = s.hist := by
  simp [Problem.solution, h1, loopUp]

namespace Problem
variable {P : Problem K ι ν π ζ}

omit [Fintype ν] in
/-- One pass of the Newton loop with an exact solve. -/
theorem newtonPass_con (hs : P.solve.Exact) {z : ζ → K} (hr : P.Regular z) (it : Nat)
    (s : Inner K ι ν π) {i : ι} {v : K} (hi : P.con i = some v) :
    (P.newtonPass z it s).u i = s.u i + newtonScale it * v := by
  simp only [newtonPass, Pi.add_apply]
  rw [conSys_prescribed (hs _ _ _ (hr _ _)) hi]

omit [Fintype ν] in
theorem newtonPass_free (hs : P.solve.Exact) {z : ζ → K} (hr : P.Regular z)
    (ha : P.pde.Affine) {it : Nat} (hit : 0 < it) (s : Inner K ι ν π) {i : ι}
    (hi : P.con i = none) :
    P.pde.value (P.newtonPass z it s).u (P.newtonPass z it s).pgrad z i = 0 := by
  simp only [newtonPass]
  rw [ha]
  have h := (conSys_zero (s := newtonScale it) (c := P.con)
    (by intro i v _; simp [newtonScale, show it ≠ 0 by omega])).1
    (hs _ s.inc (conRhs (newtonScale it) P.con (P.pde.gradU s.u (rowSummed
      (P.proj.gradU s.pgrad s.pstate z) (-P.proj.value s.pgrad s.pstate z)) z)
      (-P.pde.value s.u (rowSummed (P.proj.gradU s.pgrad s.pstate z)
        (-P.proj.value s.pgrad s.pstate z)) z)) (hr _ _))
  rw [Pi.add_apply, h.2 i hi, Pi.neg_apply]
  ring

omit [Fintype ν] in
/-- A loop with at least one pass ends with a pass. -/
theorem loop_last (z : ζ → K) (n : Nat) : ∀ (lo : Nat) (s : Inner K ι ν π),
    ∃ t, loopUp (P.newtonPass z) (n + 1) lo s = P.newtonPass z (lo + n) t := by
  induction n with
  | zero => intro lo s; exact ⟨s, rfl⟩
  | succ n ih =>
    intro lo s
    obtain ⟨t, ht⟩ := ih (lo + 1) (P.newtonPass z lo s)
    refine ⟨t, ?_⟩
    rw [show lo + (n + 1) = lo + 1 + n by omega, ← ht]
    rfl

omit [Fintype ν] in
theorem loop_con (hs : P.solve.Exact) {z : ζ → K} (hr : P.Regular z) {i : ι} {v : K}
    (hi : P.con i = some v) (n : Nat) : ∀ (lo : Nat) (s : Inner K ι ν π), 0 < lo →
    (loopUp (P.newtonPass z) n lo s).u i = s.u i := by
  induction n with
  | zero => intro lo s _; rfl
  | succ n ih =>
    intro lo s hlo
    show (loopUp (P.newtonPass z) n (lo + 1) (P.newtonPass z lo s)).u i = _
    rw [ih _ _ (by omega), newtonPass_con hs hr lo s hi]
    simp [newtonScale, show lo ≠ 0 by omega]

omit [Fintype ν] in
/-- The state and the stored gradient after the last step. -/
theorem solution_last (hs : P.solve.Exact) {z : ζ → K} (hr : P.Regular z) (s : St K ι ν π)
    (h2 : 2 ≤ P.numSteps) : ∃ x, (P.solution z s).hist (P.numSteps - 1) =
      (loopUp (P.newtonPass z) P.numNewton 0 ⟨0, 0, 0, x⟩).u ∧
    (P.solution z s).pgrad = (loopUp (P.newtonPass z) P.numNewton 0 ⟨0, 0, 0, x⟩).pgrad := by
  have key := loopUp_inv (body := P.step z)
    (fun j (t : St K ι ν π) => 2 ≤ j → ∃ x, t.hist (j - 1) =
      (loopUp (P.newtonPass z) P.numNewton 0 ⟨0, 0, 0, x⟩).u ∧
      t.pgrad = (loopUp (P.newtonPass z) P.numNewton 0 ⟨0, 0, 0, x⟩).pgrad)
    (P.numSteps - 1) 1 { s with inc := 0 } (by omega)
    (by
      intro j t hj _ _ _
      exact ⟨t.inc, step_self z j t, rfl⟩)
  have := key (by omega)
  rwa [show 1 + (P.numSteps - 1) - 1 = P.numSteps - 1 by omega] at this

end Problem

omit [Fintype ν] in
/-- **C101** (prescribed values and equilibrium): with an exact solve, a residual that is affine in
the state and at least two Newton iterations every computed step takes the prescribed values and
satisfies the equilibrium equations with *some* projected gradient; in the last step it is the
stored one.  No symmetry is needed.  Missing: that this gradient belongs to the pressures of the
state, see `C101_coupled_false` and `C101_limit_false`. -/
theorem C101_equilibrium_partial (P : Problem K ι ν π ζ) (z : ζ → K) (s : St K ι ν π)
    (hs : P.solve.Exact) (hr : P.Regular z) (ha : P.pde.Affine) (hn : 2 ≤ P.numNewton) :
    (∀ k, 1 ≤ k → k < P.numSteps → ∃ pg, Equil P.pde P.con z ((P.solution z s).hist k) pg) ∧
    (2 ≤ P.numSteps → Equil P.pde P.con z ((P.solution z s).hist (P.numSteps - 1))
      (P.solution z s).pgrad) := by
  obtain ⟨m, hm⟩ : ∃ m, P.numNewton = m + 1 + 1 := ⟨P.numNewton - 2, by omega⟩
  have key : ∀ x : ι → K, Equil P.pde P.con z
      (loopUp (P.newtonPass z) P.numNewton 0 ⟨0, 0, 0, x⟩).u
      (loopUp (P.newtonPass z) P.numNewton 0 (⟨0, 0, 0, x⟩ : Problem.Inner K ι ν π)).pgrad := by
    intro x
    refine ⟨?_, ?_⟩
    · intro i v hi
      rw [hm]
      show (loopUp (P.newtonPass z) (m + 1) 1 (P.newtonPass z 0 ⟨0, 0, 0, x⟩)).u i = v
      rw [Problem.loop_con hs hr hi _ _ _ (by omega), Problem.newtonPass_con hs hr 0 _ hi]
      simp [newtonScale]
    · intro i hi
      obtain ⟨t, ht⟩ := Problem.loop_last (P := P) z (m + 1) 0 ⟨0, 0, 0, x⟩
      rw [hm, ht]
      exact Problem.newtonPass_free hs hr ha (by omega) t hi
  refine ⟨fun k h1 h2 => ?_, fun h2 => ?_⟩
  · rw [(Problem.solution_step hs hr s).1 k h1 h2]
    exact ⟨_, key 0⟩
  · obtain ⟨x, hx1, hx2⟩ := Problem.solution_last hs hr s h2
    rw [hx1, hx2]
    exact key x

omit [Fintype ι] [DecidableEq ι] [Fintype ν] in
/-- The projected gradient after a pass. -/
theorem rowSummed_eq {M : Matrix π π K} {b : π → K} {i : π} (h : rowSum M i ≠ 0) :
    rowSum M i * rowSummed M b i = b i := by
  simp only [rowSummed]; field_simp

omit [Fintype ν] in
/-- **C101** is false for more iterations: whenever the Newton loop has come to rest, the projection
equation holds only if the projected gradient is zero.  Its residual is minus the lumped matrix
times the gradient, because the gradient is overwritten by the correction instead of corrected. -/
theorem C101_limit_false (P : Problem K ι ν π ζ) (z : ζ → K) (it : Nat)
    (s : Problem.Inner K ι ν π) (hrest : P.newtonPass z it s = s)
    (hrow : ∀ i, rowSum (P.proj.gradU s.pgrad s.pstate z) i ≠ 0) :
    (∀ i, P.proj.value s.pgrad s.pstate z i =
      -(rowSum (P.proj.gradU s.pgrad s.pstate z) i * s.pgrad i)) ∧
    (P.proj.value s.pgrad s.pstate z = 0 ↔ s.pgrad = 0) := by
  have h1 : ∀ i, P.proj.value s.pgrad s.pstate z i =
      -(rowSum (P.proj.gradU s.pgrad s.pstate z) i * s.pgrad i) := by
    intro i
    have h := rowSummed_eq (b := -P.proj.value s.pgrad s.pstate z) (hrow i)
    have e : rowSummed (P.proj.gradU s.pgrad s.pstate z) (-P.proj.value s.pgrad s.pstate z) =
        s.pgrad := congrArg Problem.Inner.pgrad hrest
    rw [e, Pi.neg_apply] at h
    rw [h, neg_neg]
  refine ⟨h1, fun h => ?_, fun h => ?_⟩
  · funext i
    have := h1 i
    rw [h, Pi.zero_apply, eq_comm, neg_eq_zero, mul_eq_zero] at this
    exact this.resolve_left (hrow i)
  · funext i
    rw [h1 i, h]; simp

/-! ## An instance -/

/-- One node with a single unknown `u`, equilibrium `u - p = z` and projection `2 p = u`: the
coupled system has the solution `u = 2 z`. -/
noncomputable def bar (newton : Nat) : Problem ℝ Unit Unit Unit Unit where
  pde := ⟨fun u p z => u - p - z, fun _ _ _ => 1, fun _ _ _ => 1, fun _ _ _ => -1,
    fun _ _ _ => -1⟩
  proj := ⟨fun p n _ => (2 : ℝ) • p - n, fun _ _ _ => fun _ _ => 2, fun _ _ _ => -1,
    fun _ _ _ => 0⟩
  numSteps := 2
  numNewton := newton
  con := fun _ => none
  solve := fun A _ b => A⁻¹ *ᵥ b
  pick := id
  raw := id

theorem conMat_none {J : Matrix ι ι K} : conMat (fun _ => none) J = J := by
  funext i j; simp [conMat]

theorem conRhs_none {J : Matrix ι ι K} {b : ι → K} {s : K} :
    conRhs s (fun _ => none) J b = b := by
  funext i; simp [conRhs]

theorem bar_regular (n : Nat) (z : Unit → ℝ) : (bar n).Regular z := by
  intro u pg
  have : conMat (bar n).con ((bar n).pde.gradU u pg z) = 1 := conMat_none
  rw [this]; simp

theorem bar_pass (n : Nat) (z : Unit → ℝ) (it : Nat) (s : Problem.Inner ℝ Unit Unit Unit) :
    (bar n).newtonPass z it s = ⟨fun _ => s.pstate () / 2 - s.pgrad () + z (),
      fun _ => s.pstate () / 2 - s.pgrad (), fun _ => s.pstate () / 2 - s.pgrad () + z (),
      fun _ => s.pstate () / 2 - s.pgrad () + z () - s.u ()⟩ := by
  have e1 : rowSummed (fun _ _ => (2 : ℝ) : Matrix Unit Unit ℝ) (-((2 : ℝ) • s.pgrad - s.pstate))
      = fun _ => s.pstate () / 2 - s.pgrad () := by
    funext i
    simp [rowSummed, rowSum]; ring
  have e2 : ∀ pg : Unit → ℝ, s.u + (1 : Matrix Unit Unit ℝ)⁻¹ *ᵥ (-(s.u - pg - z)) = pg + z := by
    intro pg; rw [inv_one, one_mulVec]; abel
  simp only [Problem.newtonPass, bar, conMat_none, conRhs_none, id]
  rw [e1]
  have e3 : s.u + (1 : Matrix Unit Unit ℝ)⁻¹ *ᵥ
      (-(s.u - (fun _ => s.pstate () / 2 - s.pgrad ()) - z)) =
      fun _ => s.pstate () / 2 - s.pgrad () + z () := by
    rw [e2]; rfl
  have e4 : (1 : Matrix Unit Unit ℝ)⁻¹ *ᵥ
      (-(s.u - (fun _ => s.pstate () / 2 - s.pgrad ()) - z)) =
      fun _ => s.pstate () / 2 - s.pgrad () + z () - s.u () := by
    have : s.u + (1 : Matrix Unit Unit ℝ)⁻¹ *ᵥ
      (-(s.u - (fun _ => s.pstate () / 2 - s.pgrad ()) - z)) = s.u + fun _ =>
        s.pstate () / 2 - s.pgrad () + z () - s.u () := by
      rw [e3]; funext i; simp
    exact add_left_cancel this
  rw [e4]
  congr 1 <;> funext i <;> simp

/-- After any number of iterations the gradient is between zero and half of the right one. -/
theorem bar_loop (m : Nat) (z : Unit → ℝ) (hz : 0 < z ()) (n : Nat) :
    let s := loopUp ((bar m).newtonPass z) (n + 1) 0 ⟨0, 0, 0, 0⟩
    0 ≤ s.pgrad () ∧ s.pgrad () ≤ z () / 2 ∧ s.pstate () = s.pgrad () + z () ∧
      s.u () = s.pgrad () + z () := by
  have key := loopUp_inv (body := (bar m).newtonPass z)
    (fun j (s : Problem.Inner ℝ Unit Unit Unit) => 1 ≤ j →
      0 ≤ s.pgrad () ∧ s.pgrad () ≤ z () / 2 ∧ s.pstate () = s.pgrad () + z () ∧
      s.u () = s.pgrad () + z ()) n 1 ((bar m).newtonPass z 0 ⟨0, 0, 0, 0⟩)
    (by
      intro _
      rw [bar_pass]
      simp
      linarith)
    (by
      intro j s hj _ ih _
      obtain ⟨h1, h2, h3, -⟩ := ih hj
      rw [bar_pass]
      simp only [h3]
      refine ⟨by linarith, by linarith, trivial, trivial⟩)
  exact key (by omega)

/-- **C101** is false for every number of Newton iterations: the computed state of the instance
never solves the coupled system, `u = 2 z`; it stays below `3/2 z`. -/
theorem C101_coupled_false (n : Nat) (z : Unit → ℝ) (hz : 0 < z ()) :
    Equil (bar n).pde (bar n).con z (fun _ => 2 * z ()) (fun _ => z ()) ∧
    (bar n).proj.value (fun _ => z ()) (fun _ => 2 * z ()) z = 0 ∧
    ((bar n).solution z ⟨0, 0, 0, 0, 0, 0⟩).hist 1 () ≤ 3 / 2 * z () := by
  refine ⟨⟨fun i v h => (by cases h), fun i _ => ?_⟩, ?_, ?_⟩
  · show 2 * z () - z () - z i = 0
    rw [show i = () from rfl]; ring
  · funext i
    show 2 * z () - 2 * z () = 0
    ring
  · rw [(Problem.solution_step LinSolver.exact_inv (bar_regular n z) _).1 1 le_rfl
      (show 1 < 2 by omega)]
    cases n with
    | zero =>
      show (0 : ℝ) ≤ 3 / 2 * z ()
      linarith
    | succ n =>
      obtain ⟨-, h2, -, h4⟩ := bar_loop (n + 1) z hz n
      show (loopUp ((bar (n + 1)).newtonPass z) (n + 1) 0 ⟨0, 0, 0, 0⟩).u () ≤ _
      rw [h4]; linarith

/-- The hypotheses of `C101_equilibrium_partial` are met by the instance, which has a state that is
not zero. -/
example : (bar 2).solve.Exact ∧ (bar 2).Regular 1 ∧ (bar 2).pde.Affine ∧ 2 ≤ (bar 2).numNewton ∧
    2 ≤ (bar 2).numSteps := by
  refine ⟨LinSolver.exact_inv, bar_regular 2 1, ?_, le_rfl, le_rfl⟩
  intro u du pg z
  show u + du - pg - z = u - pg - z + (1 : Matrix Unit Unit ℝ) *ᵥ du
  rw [one_mulVec]; abel

/-- The hypotheses of `C101_limit_false` are met: the loop of the instance rests at `4/3 z`, with a
third of the projected gradient of the coupled system. -/
example : (bar 2).newtonPass (fun _ => 1) 1
    ⟨fun _ => 4 / 3, fun _ => 1 / 3, fun _ => 4 / 3, fun _ => 0⟩ =
    ⟨fun _ => 4 / 3, fun _ => 1 / 3, fun _ => 4 / 3, fun _ => 0⟩ ∧
    ∀ i, rowSum ((bar 2).proj.gradU (fun _ => 1 / 3) (fun _ => 4 / 3) (fun _ => 1)) i ≠ 0 := by
  refine ⟨?_, ?_⟩
  · rw [bar_pass]; norm_num
  · intro i; simp [bar, rowSum]

end Plato.Vms
