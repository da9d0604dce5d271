import Mathlib.Tactic.NormNum
import Verif.Plastic.Forward

/-!
# Counterexamples for C33, C34 and the reaction force (C44)

One bar with one degree of freedom, which is prescribed: `u(t) = bc t`.
-/

namespace Plato

open Matrix Finset

/-- A single prescribed degree of freedom, linear elastic, no pressure, exact linear solver; the
internal force is `2 u + 1` (prestressed). -/
noncomputable def bar (bc : ℚ → ℚ) (resTol : ℚ) (maxIter : Int) (endTime : ℚ) (maxSteps : Nat)
    (mult : ℚ) : PlasProblem ℚ ℚ Unit Unit Unit Unit Unit Unit where
  eq :=
    { r := fun a _ _ _ _ => 2 • a.u + 1
      rU := fun _ _ _ _ _ => fun _ _ => 2
      rUp := fun _ _ _ _ _ => 0
      rC := fun _ _ _ _ _ => 0
      rCp := fun _ _ _ _ _ => 0
      rP := fun _ _ _ _ _ => 0
      rZ := fun _ _ _ _ _ => 0
      h := fun a _ _ => a.c
      hU := fun _ _ _ => 0
      hUp := fun _ _ _ => 0
      hC := fun _ _ _ => 1
      hCp := fun _ _ _ => 0
      hZ := fun _ _ _ => 0
      proj := fun p _ _ _ => p
      projP := fun _ _ _ _ => 1
      projN := fun _ _ _ _ => 0
      projZ := fun _ _ _ _ => 0
      updLocal := fun _ _ _ => 0 }
  solve := fun A _ b => A⁻¹ *ᵥ b
  inv := fun A => A⁻¹
  isDir := fun _ => true
  bc := fun t _ => bc t
  pres := fun _ => ()
  nodeDofs := fun _ => [()]
  nrm := fun b => |b ()|
  nr := ⟨1 / 10 ^ 8, resTol, maxIter, false⟩
  endTime := endTime
  maxSteps := maxSteps
  mult := mult

section
variable {bc : ℚ → ℚ} {resTol : ℚ} {maxIter : Int} {endTime : ℚ} {maxSteps : Nat} {mult : ℚ}

theorem bar_rhs (it : Nat) (v : Unit → ℚ) (J : Matrix Unit Unit ℚ) (b : Unit → ℚ) :
    conRhs 1 ((bar bc resTol maxIter endTime maxSteps mult).con (if it = 0 then v else 0)) J b =
      fun _ => if it = 0 then v () else 0 := by
  funext i
  simp only [conRhs, PlasProblem.con, bar, if_true]
  split_ifs <;> simp

theorem bar_eval (z up cp p : Unit → ℚ) (load : ℚ) (incr : Unit → ℚ) (k : Nat)
    (uc : (Unit → ℚ) × (Unit → ℚ)) :
    ∃ sys, ((bar bc resTol maxIter endTime maxSteps mult).nrSys z up cp p load incr k).eval 0 uc =
      Res.ok (|incr ()|, sys) := by
  simp only [PlasProblem.nrSys]
  rw [if_neg (by simp [bar])]
  have h := bar_rhs (bc := bc) (resTol := resTol) (maxIter := maxIter) (endTime := endTime)
    (maxSteps := maxSteps) (mult := mult) 0 incr
  simp only [if_true] at h ⊢
  rw [h]
  exact ⟨_, rfl⟩

/-- A solve that stops at its first evaluation. -/
theorem bar_newton (z up cp p : Unit → ℚ) (load : ℚ) (incr : Unit → ℚ) (k : Nat) (c : StopCrit)
    (hc : checkStopping (⟨1 / 10 ^ 8, resTol, maxIter, false⟩ : NrParams ℚ) 0
      ⟨|incr ()|, Flt.huge, |incr ()|⟩ = some c) :
    ∃ o, (bar bc resTol maxIter endTime maxSteps mult).newton z up cp p load incr k =
      Res.ok ⟨(up, 0), c, o, [|incr ()|]⟩ := by
  obtain ⟨sys, he⟩ := bar_eval (bc := bc) (resTol := resTol) (maxIter := maxIter)
    (endTime := endTime) (maxSteps := maxSteps) (mult := mult) z up cp p load incr k (up, 0)
  refine ⟨⟨|incr ()|, Flt.huge, |incr ()|⟩, ?_⟩
  simp only [PlasProblem.newton]
  rw [nrLoop]
  have hu : (bar bc resTol maxIter endTime maxSteps mult).eq.updLocal ⟨up, up, cp, cp⟩ z k = 0 :=
    rfl
  rw [hu, he, Res.ok_bind]
  have hcs : computeStopping (bar bc resTol maxIter endTime maxSteps mult).nr 0
      { NrOut.init with cur := |incr ()| } = Res.ok ⟨|incr ()|, Flt.huge, |incr ()|⟩ := by
    simp [computeStopping, Flt.finite, NrOut.init]
  rw [hcs, Res.ok_bind]
  have : checkStopping (bar bc resTol maxIter endTime maxSteps mult).nr 0
      ⟨|incr ()|, Flt.huge, |incr ()|⟩ = some c := hc
  rw [this]
  rfl

end

/-! ## C33 -/

/-- The bar pulled by 1 at once, with no Newton-Raphson iteration allowed: never converges. -/
noncomputable def stuckBar : PlasProblem ℚ ℚ Unit Unit Unit Unit Unit Unit :=
  bar (fun _ => 1) (1 / 100) 0 1 10 (3 / 2)

theorem stuckBar_forward (z : Unit → ℚ) (s : PlasState ℚ Unit Unit Unit Unit)
    (hn : s.numSteps = 1) : ∃ s1, stuckBar.forward z s = Res.ok (s1, false) := by
  have hc : checkStopping (⟨1 / 10 ^ 8, 1 / 100, 0, false⟩ : NrParams ℚ) 0
      ⟨|(1 : ℚ)|, Flt.huge, |(1 : ℚ)|⟩ = some .maxIterations := by
    norm_num [checkStopping, Flt.lt, Flt.ge, Flt.huge, Flt.big]
  obtain ⟨o, ho⟩ := bar_newton (bc := fun _ => 1) (endTime := 1) (maxSteps := 10) (mult := 3 / 2)
    z (prevOf (PlasProblem.clear s).u 0) (prevOf (PlasProblem.clear s).c 0)
    ((PlasProblem.clear s).p 0) ((PlasProblem.clear s).stepSize * ((0 + 1 : Nat) : ℚ))
    (fun _ => 1) 0 .maxIterations hc
  have hi : stuckBar.bc ((PlasProblem.clear s).stepSize * ((0 + 1 : Nat) : ℚ)) -
      (if 0 ≠ 0 then (PlasProblem.clear s).dirVals else 0) = fun _ => 1 := by
    funext i
    simp [stuckBar, bar]
  have hn1 := ho
  change stuckBar.newton _ _ _ _ _ _ _ = _ at hn1
  rw [← hi] at hn1
  obtain ⟨s1, h1⟩ := PlasProblem.forwardStep_of_newton hn1
  refine ⟨s1, ?_⟩
  rw [PlasProblem.forward, hn, PlasProblem.forwardLoop, h1, Res.ok_bind]
  rfl

/-- **C33 does not hold**: with multiplier 3/2 and one initial step (maximum 10), truncation keeps
the number of steps at 1, and the retry loop never ends when the Newton-Raphson solver fails. -/
theorem C33_false_multiplier (z : Unit → ℚ) :
    1 ≤ stuckBar.mult ∧ ∀ fuel, stuckBar.solution z fuel (stuckBar.create 1) = Res.ok none := by
  refine ⟨by norm_num [stuckBar, bar], fun fuel => ?_⟩
  have key : ∀ fuel (s : PlasState ℚ Unit Unit Unit Unit), s.numSteps = 1 → s.maxReached = false →
      stuckBar.solution z fuel s = Res.ok none := by
    intro fuel
    induction fuel with
    | zero => intro s _ _; rfl
    | succ fuel ih =>
      intro s hn hr
      obtain ⟨s1, h1⟩ := stuckBar_forward z s hn
      obtain ⟨a1, a2, a3, a4⟩ := PlasProblem.forward_frame h1
      rw [PlasProblem.solution, h1, Res.ok_bind]
      simp only [Bool.false_eq_true, if_false, a3, hr]
      have hfl : ⌊(s1.numSteps : ℚ) * (3 / 2)⌋₊ = 1 := by
        rw [a1, hn]
        norm_num [Nat.floor_eq_iff]
      refine ih _ ?_ ?_
      · simp only [PlasProblem.resize, stuckBar, bar, hfl]
        norm_num
      · simp only [PlasProblem.resize, stuckBar, bar, hfl, a3, hr]
        norm_num
  exact key fuel _ (by simp [PlasProblem.create, stuckBar, bar])
    (by simp [PlasProblem.create, stuckBar, bar])

/-! ## C34 -/

/-- The bar is pulled at the rate 1/20; the residual tolerance is 1/10. -/
noncomputable def slowBar (n : Nat) : PlasProblem ℚ ℚ Unit Unit Unit Unit Unit Unit :=
  bar (fun t => t / 20) (1 / 10) 10 n (n + 1) 2

theorem slowBar_loop (n : Nat) (z : Unit → ℚ) : ∀ (m k : Nat) (s : PlasState ℚ Unit Unit Unit Unit),
    s.stepSize = 1 → (∀ j, s.u j = 0) → (k ≠ 0 → s.dirVals = fun _ => (k : ℚ) / 20) →
    ∃ s', (slowBar n).forwardLoop z m k s = Res.ok (s', true) ∧ ∀ j, s'.u j = 0 := by
  intro m
  induction m with
  | zero => intro k s _ hu _; exact ⟨s, rfl, hu⟩
  | succ m ih =>
    intro k s hs hu hd
    set incr : Unit → ℚ := (slowBar n).bc (s.stepSize * ((k + 1 : Nat) : ℚ)) -
      (if k ≠ 0 then s.dirVals else 0) with hincr
    have hi : incr = fun _ => 1 / 20 := by
      funext i
      simp only [hincr, slowBar, bar, hs]
      rcases Nat.eq_zero_or_pos k with h0 | h0
      · subst h0; norm_num
      · have h0' : k ≠ 0 := by omega
        simp only [h0', ne_eq, not_false_eq_true, if_true, hd h0', Pi.sub_apply]
        push_cast; ring
    have hc : checkStopping (⟨1 / 10 ^ 8, 1 / 10, 10, false⟩ : NrParams ℚ) 0
        ⟨|incr ()|, Flt.huge, |incr ()|⟩ = some .currentNorm := by
      rw [hi]
      norm_num [checkStopping, Flt.lt, Flt.ge, Flt.huge, Flt.big, abs_of_pos]
    obtain ⟨o, ho⟩ := bar_newton (bc := fun t => t / 20) (endTime := n) (maxSteps := n + 1)
      (mult := 2) z (prevOf s.u k) (prevOf s.c k) (s.p k) (s.stepSize * ((k + 1 : Nat) : ℚ)) incr k
      .currentNorm hc
    have hstep : ∃ s1, (slowBar n).forwardStep z k s = Res.ok (s1, true) :=
      PlasProblem.forwardStep_of_newton (P := slowBar n) ho
    obtain ⟨s1, h1⟩ := hstep
    obtain ⟨r, hr⟩ := PlasProblem.forwardStep_rel h1
    have hrr := hr.newton
    rw [← hincr, show (slowBar n).newton z (prevOf s.u k) (prevOf s.c k) (s.p k)
        (s.stepSize * ((k + 1 : Nat) : ℚ)) incr k = _ from ho] at hrr
    simp only [Res.ok.injEq] at hrr
    have hu1 : ∀ j, s1.u j = 0 := by
      intro j
      rw [hr.u, ← hrr]
      simp only [Function.update_apply]
      split
      · simp only [prevOf]; split
        · rfl
        · exact hu _
      · exact hu j
    obtain ⟨s', h2, h3⟩ := ih (k + 1) s1 (hr.stepSize.trans hs) hu1 (fun _ => by
      rw [hr.dirVals, hs]; simp [slowBar, bar])
    refine ⟨s', ?_, h3⟩
    rw [PlasProblem.forwardLoop, h1, Res.ok_bind]
    simpa using h2

/-- **C34 does not hold for the applied displacement**: for every number of steps `n`, the bar that
is pulled by `n/20` in `n` steps is reported as solved, and has not moved at all; every increment is
below the residual tolerance. -/
theorem C34_false (n : Nat) (hn : 1 ≤ n) (z : Unit → ℚ) :
    ∃ s', (slowBar n).solution z 1 ((slowBar n).create n) = Res.ok (some (s', true)) ∧
      s'.u (n - 1) () = 0 ∧ (slowBar n).bc (slowBar n).endTime () = (n : ℚ) / 20 := by
  have h0 : (n : ℚ) ≠ 0 := by exact_mod_cast (by omega : n ≠ 0)
  have hns : ((slowBar n).create n : PlasState ℚ Unit Unit Unit Unit).numSteps = n := by
    simp [PlasProblem.create, slowBar, bar]
  obtain ⟨s', h1, h2⟩ := slowBar_loop n z n 0
    (PlasProblem.clear ((slowBar n).create n)) (by simp [PlasProblem.clear, PlasProblem.create, slowBar, bar, h0]) (fun _ => rfl) (by simp)
  refine ⟨s', ?_, by rw [h2]; rfl, rfl⟩
  rw [PlasProblem.solution, PlasProblem.forward, hns, h1, Res.ok_bind]
  rfl

/-- **C33 does not hold for the grid**: asked for `2m` steps with at most `m` allowed, the solver
reports success on a grid that ends at half of the end time. -/
theorem C33_false_grid (m : Nat) (hm : 1 ≤ m) (z : Unit → ℚ) :
    ∃ s', (bar (fun _ => 0) 1 10 1 m 2).solution z 1
        ((bar (fun _ => 0) 1 10 1 m 2).create (2 * m)) = Res.ok (some (s', true)) ∧
      s'.stepSize * (s'.numSteps : ℚ) = 1 / 2 ∧ (bar (fun _ => 0) 1 10 1 m 2).endTime = 1 := by
  have hm0 : (m : ℚ) ≠ 0 := by exact_mod_cast (by omega : m ≠ 0)
  have key : ∀ (n k : Nat) (s : PlasState ℚ Unit Unit Unit Unit),
      (k ≠ 0 → s.dirVals = 0) →
      ∃ s', (bar (fun _ => 0) 1 10 1 m 2).forwardLoop z n k s = Res.ok (s', true) := by
    intro n
    induction n with
    | zero => intro k s _; exact ⟨s, rfl⟩
    | succ n ih =>
      intro k s hd
      set incr : Unit → ℚ := (bar (fun _ => 0) 1 10 1 m 2).bc (s.stepSize * ((k + 1 : Nat) : ℚ)) -
        (if k ≠ 0 then s.dirVals else 0) with hincr
      have hi : incr = 0 := by
        funext i
        simp only [hincr, bar]
        split_ifs with h0
        · rw [hd h0]; simp
        · simp
      have hc : checkStopping (⟨1 / 10 ^ 8, 1, 10, false⟩ : NrParams ℚ) 0
          ⟨|incr ()|, Flt.huge, |incr ()|⟩ = some .currentNorm := by
        rw [hi]
        norm_num [checkStopping, Flt.lt, Flt.ge, Flt.huge, Flt.big]
      obtain ⟨o, ho⟩ := bar_newton (bc := fun _ => 0) (endTime := 1) (maxSteps := m)
        (mult := 2) z (prevOf s.u k) (prevOf s.c k) (s.p k) (s.stepSize * ((k + 1 : Nat) : ℚ)) incr k
        .currentNorm hc
      have hstep : ∃ s1, (bar (fun _ => 0) 1 10 1 m 2).forwardStep z k s = Res.ok (s1, true) :=
        PlasProblem.forwardStep_of_newton ho
      obtain ⟨s1, h1⟩ := hstep
      obtain ⟨r, hr⟩ := PlasProblem.forwardStep_rel h1
      obtain ⟨s', h2⟩ := ih (k + 1) s1 (fun _ => by rw [hr.dirVals]; rfl)
      refine ⟨s', ?_⟩
      rw [PlasProblem.forwardLoop, h1, Res.ok_bind]
      simpa using h2
  obtain ⟨s', h1⟩ := key m 0
    (PlasProblem.clear ((bar (fun _ => 0) 1 10 1 m 2).create (2 * m))) (by simp)
  have hle : m ≤ 2 * m := by omega
  have hns : ((bar (fun _ => 0) 1 10 1 m 2).create (2 * m) :
      PlasState ℚ Unit Unit Unit Unit).numSteps = m := by
    simp [PlasProblem.create, bar, hle]
  have h2 := PlasProblem.forwardLoop_frame _ _ _ _ _ h1
  refine ⟨s', ?_, ?_, rfl⟩
  · rw [PlasProblem.solution, PlasProblem.forward, hns, h1, Res.ok_bind]
    rfl
  · rw [h2.1, h2.2.1]
    simp only [PlasProblem.clear, PlasProblem.create, bar, hle, if_true]
    push_cast
    field_simp

/-! ## C44 -/

/-- Repeated solves of the same problem with the same design. -/
def solves {F K ι κ π ν ζ η : Type} [Flt F] [Field K] [Fintype ι] [DecidableEq ι] [Fintype κ]
    [Fintype π] [Fintype ν] [Fintype ζ] (P : PlasProblem F K ι κ π ν ζ η) (z : ζ → K) :
    Nat → PlasState K ι κ π η → Res (PlasState K ι κ π η)
  | 0, s => Res.ok s
  | m + 1, s => do
    let r ← P.forward z s
    solves P z m r.1

/-- **C44 does not hold**: after `m` identical solves, the reported reaction force is `m` times the
internal force. -/
theorem C44_false (m : Nat) (z : Unit → ℚ) :
    ∃ s', solves (slowBar 1) z m ((slowBar 1).create 1) = Res.ok s' ∧ s'.react 0 () = m ∧
      (slowBar 1).internalForce z s' 0 () = 1 := by
  have key : ∀ (m : Nat) (s : PlasState ℚ Unit Unit Unit Unit), s.stepSize = 1 → s.numSteps = 1 →
      (∀ j, s.u j = 0) →
      ∃ s', solves (slowBar 1) z m s = Res.ok s' ∧ s'.react 0 () = s.react 0 () + m ∧
        ∀ j, s'.u j = 0 := by
    intro m
    induction m with
    | zero => intro s _ _ hu; exact ⟨s, rfl, by simp, hu⟩
    | succ m ih =>
      intro s h1 h2 hu
      obtain ⟨s1, e1, e2⟩ := slowBar_loop 1 z 1 0 (PlasProblem.clear s) h1 (fun _ => rfl) (by simp)
      have hf : (slowBar 1).forward z s = Res.ok (s1, true) := by
        rw [PlasProblem.forward, h2, e1]
      obtain ⟨a1, a2, -, -⟩ := PlasProblem.forward_frame hf
      have hr := PlasProblem.C44_reaction z s s1 hf 0 (by omega) ()
      have hi : (slowBar 1).internalForce z s1 0 () = 1 := by
        simp [PlasProblem.internalForce, slowBar, bar, PlasState.at, e2]
      obtain ⟨s', b1, b2, b3⟩ := ih s1 (a2.trans h1) (a1.trans h2) e2
      refine ⟨s', ?_, ?_, b3⟩
      · rw [solves, hf, Res.ok_bind, b1]
      · rw [b2, hr, hi]; push_cast; ring
  obtain ⟨s', h1, h2, h3⟩ := key m ((slowBar 1).create 1)
    (by simp [PlasProblem.create, slowBar, bar]) (by simp [PlasProblem.create, slowBar, bar])
    (fun _ => rfl)
  refine ⟨s', h1, by rw [h2]; simp [PlasProblem.create], ?_⟩
  simp [PlasProblem.internalForce, slowBar, bar, PlasState.at, h3]

/-! ## The hypotheses of the positive theorems can be met -/

/-- `C33_created_partial` applies to the slow bar, with 3 steps. -/
example : 1 ≤ (slowBar 3).mult ∧ 3 < (slowBar 3).maxSteps ∧
    ((3 : Nat) : ℚ) + 1 ≤ (3 : Nat) * (slowBar 3).mult := by
  norm_num [slowBar, bar]

/-- `C34_applied_partial`: exact solver, invertible constrained tangents. -/
example (n : Nat) (z : Unit → ℚ) : (slowBar n).solve.Exact ∧
    ∀ a p load k, IsUnit (conMat ((slowBar n).con 0) ((slowBar n).tangent a p z load k)).det := by
  refine ⟨LinSolver.exact_inv, fun a p load k => ?_⟩
  have : conMat ((slowBar n).con 0) ((slowBar n).tangent a p z load k) = 1 := by
    funext i j
    simp [conMat, PlasProblem.con, slowBar, bar, Matrix.one_apply]
  rw [this, det_one]
  exact isUnit_one

end Plato
