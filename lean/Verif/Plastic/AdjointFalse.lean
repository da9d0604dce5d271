import Mathlib.Tactic.FinCases
import Mathlib.Tactic.IntervalCases
import Mathlib.Tactic.NormNum
import Verif.Plastic.Adjoint

/-!
# Where the plasticity gradient is wrong (C35)

Small problems with exact solvers in which every hypothesis of `C35_partial` but one holds, and the
returned gradient differs from the derivative of the criterion.  In every example degree of freedom
`0` is prescribed.
-/

namespace Plato

open Matrix Finset

/-- Equations without coupling; the examples override what they need. -/
def plainEq (ι π : Type) [DecidableEq ι] [DecidableEq π] : PlasEq ℚ ι Unit π Unit Unit where
  r := fun a _ _ _ _ => a.u
  rU := fun _ _ _ _ _ => 1
  rUp := fun _ _ _ _ _ => 0
  rC := fun _ _ _ _ _ => 0
  rCp := fun _ _ _ _ _ => 0
  rP := fun _ _ _ _ _ => 0
  rZ := fun _ _ _ _ _ => 0
  h := fun a _ _ => a.c
  hU := fun _ _ _ => 0
  hUp := fun _ _ _ => 0
  hC := fun _ _ _ => 1
  hCp := fun _ _ _ => 0
  hZ := fun _ _ _ => 0
  proj := fun p _ _ _ => p
  projP := fun _ _ _ _ => 1
  projN := fun _ _ _ _ => 0
  projZ := fun _ _ _ _ => 0
  updLocal := fun _ _ _ => 0

noncomputable def plain (n : Nat) (π : Type) [DecidableEq π] (eq : PlasEq ℚ (Fin (n + 2)) Unit π Unit Unit) :
    PlasProblem ℚ ℚ (Fin (n + 2)) Unit π Unit Unit Unit where
  eq := eq
  solve := fun A _ b => A⁻¹ *ᵥ b
  inv := fun A => A⁻¹
  isDir := fun i => decide (i = 0)
  bc := fun _ _ => 0
  pres := fun _ => 1
  nodeDofs := fun _ => []
  nrm := fun b => ∑ i, |b i|
  nr := ⟨0, 0, 0, false⟩
  endTime := 1
  maxSteps := 1
  mult := 1

theorem conMat_one' {ι : Type} [Fintype ι] [DecidableEq ι] (c : Dirichlet ℚ ι) :
    conMat c (1 : Matrix ι ι ℚ) = 1 := by
  funext i j
  simp [conMat, Matrix.one_apply]

/-- A state with given histories after a forward solve: the load multiplier is 0
(`PlasProblem.StepRel.load`). -/
def solved {ι π : Type} (N : Nat) (dt : ℚ) (u : Nat → ι → ℚ) (p : Nat → π → ℚ) :
    PlasState ℚ ι Unit π Unit where
  u := u
  c := fun _ => 0
  p := p
  react := fun _ => 0
  dirVals := 0
  prevDir := 0
  load := 0
  numSteps := N
  stepSize := dt
  maxReached := false
  stopOpt := false
  log := []

/-! ## Design dependent loads -/

/-- A spring under its own weight, which is proportional to the design: `r = u - load * z`. -/
noncomputable def weighted : PlasProblem ℚ ℚ (Fin 2) Unit Unit Unit Unit Unit :=
  plain 0 Unit
    { plainEq (Fin 2) Unit with
      r := fun a _ z load _ i => a.u i - load * z ()
      rZ := fun _ _ _ load _ _ _ => -load }

/-- The displacement of the free end. -/
def endDisp (n : Nat) (last : Nat) (e : Fin n) : PlasCriterion ℚ (Fin n) Unit Unit where
  val := fun a _ k => if k = last then a.u e else 0
  fU := fun _ _ k i => if k = last ∧ i = e then 1 else 0
  fUp := fun _ _ _ => 0
  fC := fun _ _ _ => 0
  fCp := fun _ _ _ => 0
  fZ := fun _ _ _ => 0

/-- **C35 does not hold for design dependent loads**: for the spring under its own weight, one
step, the equations hold with load multiplier 1, all hypotheses of `C35_partial` hold except
`LoadFree`, and the returned gradient is 0 although the derivative is 1. -/
theorem C35_false_load :
    let s : PlasState ℚ (Fin 2) Unit Unit Unit := solved 1 1 (fun _ i => if i = 1 then 1 else 0) 0
    let du : Nat → Fin 2 → ℚ := fun _ i => if i = 1 then 1 else 0
    (∀ i, weighted.isDir i = false → weighted.eq.r (s.at 0) (s.p 0) 1 1 0 i = 0) ∧
    PlasTangent weighted 1 1 s (fun _ => 1) 0 du 0 0 ∧ weighted.AdjointReady 1 s ∧
    (endDisp 2 0 1).along 1 1 s du 0 = 1 ∧
    ∃ g, weighted.criterionGradient (endDisp 2 0 1) 1 s = Res.ok g ∧ g ⬝ᵥ 1 = 0 := by
  intro s du
  have hT : ∀ k, weighted.tangent (s.at k) (s.p k) 1 s.load k = 1 := by
    intro k
    simp [PlasProblem.tangent, weighted, plain, plainEq]
  refine ⟨?_, ⟨?_, ?_, ?_, rfl, ?_⟩, ⟨LinSolver.exact_inv, ?_, ?_, ?_⟩, ?_, ?_⟩
  · intro i hi
    fin_cases i
    · simp [weighted, plain] at hi
    · simp [weighted, plain, s, solved, PlasState.at]
  · intro k _ i hi
    fin_cases i
    · simp [du]
    · simp [weighted, plain] at hi
  · intro k _ i hi
    fin_cases i
    · simp [weighted, plain] at hi
    · simp [weighted, plain, plainEq, du, mulVec, dotProduct]
  · intro k _
    simp [weighted, plain, plainEq]
  · intro k h1 h2
    simp only [s, solved] at h2
    omega
  · intro k _
    simp [weighted, plain, plainEq]
  · intro k _
    rw [hT, transpose_one, conMat_one', det_one]
    exact isUnit_one
  · intro k h1 h2
    simp only [s, solved] at h2
    omega
  · simp [PlasCriterion.along, s, solved, endDisp, du, dotProduct, prevOf]
  · refine ⟨0, ?_, by simp⟩
    have hne : ¬ (s.numSteps ≠ 0 ∧ ∀ i, weighted.isDir i = false) := by
      rintro ⟨-, h⟩
      have := h 0
      simp [weighted, plain] at this
    simp only [PlasProblem.criterionGradient, hne, if_false]
    have hs : s.stopOpt = false := rfl
    have hN : s.numSteps = 1 := rfl
    simp only [hs, hN, Bool.false_eq_true, if_false, loopDown, PlasProblem.backwardStep,
      PlasProblem.pdeGrad]
    congr 1
    have hz : weighted.eq.rZ (s.at 0) (s.p 0) 1 s.load 0 = 0 := by
      funext i j
      simp [weighted, plain, s, solved]
    have hh : weighted.eq.hZ (s.at 0) 1 0 = 0 := rfl
    have hp : weighted.eq.projZ (s.p 0) (weighted.pressure (s.u 0)) 1 0 = 0 := rfl
    simp only [Nat.sub_self, Nat.zero_add, hz, hh, hp, transpose_zero, zero_mulVec, endDisp,
      sum_const_zero, add_zero]

/-! ## The projection -/

/-- `r_k = u_k - (k+1) z - p_k` at the free end, `P = z (p - n)`; the projection gives
`p_{k+1} = u_k` for every design. -/
noncomputable def projected : PlasProblem ℚ ℚ (Fin 2) Unit Unit Unit Unit Unit :=
  plain 0 Unit
    { plainEq (Fin 2) Unit with
      r := fun a p z _ k i => a.u i - (k + 1) * z () - p ()
      rP := fun _ _ _ _ _ _ _ => -1
      rZ := fun _ _ _ _ k _ _ => -(k + 1)
      proj := fun p n z _ _ => z () * (p () - n ())
      projP := fun _ _ z _ _ _ => z ()
      projN := fun _ _ z _ _ _ => -z ()
      projZ := fun p n _ _ _ _ => p () - n () }

/-- The history of `projected` for the design 1, two steps: `u = 1, 3`, `p = 0, 1`. -/
def projHist : PlasState ℚ (Fin 2) Unit Unit Unit :=
  solved 2 (1 / 2) (fun k i => if i = 1 then (if k = 0 then 1 else 3) else 0)
    (fun k _ => if k = 0 then 0 else 1)

/-- **C35 does not hold for the pressure projection**: for two steps of `projected` the equations
hold, all hypotheses of `C35_partial` hold (with the correct derivative 0 of the projection equation
with respect to the design) except that the code evaluates that derivative with the pressure of the
wrong step; the returned gradient is 5, the derivative is 3. -/
theorem C35_false_projection :
    let du : Nat → Fin 2 → ℚ := fun k i => if i = 1 then (if k = 0 then 1 else 3) else 0
    let dp : Nat → Unit → ℚ := fun k _ => if k = 0 then 0 else 1
    (∀ k, k < 2 → ∀ i, projected.isDir i = false →
      projected.eq.r (projHist.at k) (projHist.p k) 1 1 k i = 0) ∧
    (projected.eq.proj (projHist.p 1) (projected.pressure (projHist.u 0)) 1 1 = 0 ∧
      projected.eq.projZ (projHist.p 1) (projected.pressure (projHist.u 0)) 1 1 = 0) ∧
    PlasTangent projected 1 1 projHist (fun _ => 1) 0 du 0 dp ∧
    projected.AdjointReady 1 projHist ∧ projected.LoadFree 1 projHist (fun _ => 1) ∧
    (endDisp 2 1 1).along 1 1 projHist du 0 = 3 ∧
    ∃ g, projected.criterionGradient (endDisp 2 1 1) 1 projHist = Res.ok g ∧ g ⬝ᵥ 1 = 5 := by
  intro du dp
  have hT : ∀ k, projected.tangent (projHist.at k) (projHist.p k) 1 projHist.load k = 1 := by
    intro k
    simp [PlasProblem.tangent, projected, plain, plainEq]
  refine ⟨?_, ⟨?_, ?_⟩, ⟨?_, ?_, ?_, rfl, ?_⟩, ⟨LinSolver.exact_inv, ?_, ?_, ?_⟩,
    ⟨?_, ?_, ?_, ?_, ?_, ?_⟩, ?_, ?_⟩
  · intro k hk i hi
    fin_cases i
    · simp [projected, plain] at hi
    · interval_cases k <;>
      norm_num [projected, plain, projHist, solved, PlasState.at]
  · funext i; simp [projected, plain, projHist, solved, PlasProblem.pressure]
  · funext i j; simp [projected, plain, projHist, solved, PlasProblem.pressure]
  · intro k _ i hi
    fin_cases i
    · simp [du]
    · simp [projected, plain] at hi
  · intro k hk i hi
    have hk : k < 2 := hk
    fin_cases i
    · simp [projected, plain] at hi
    · interval_cases k <;>
      norm_num [projected, plain, plainEq, du, dp, mulVec, dotProduct]
  · intro k _
    simp [projected, plain, plainEq]
  · intro k h1 hk i
    have hk : k < 2 := hk
    interval_cases k
    norm_num [projected, plain, projHist, solved, PlasProblem.pressure, prevOf, du, dp, mulVec,
      dotProduct]
  · intro k _
    simp [projected, plain, plainEq]
  · intro k _
    rw [hT, transpose_one, conMat_one', det_one]
    exact isUnit_one
  · intro k h1 h2 i
    simp [projected, plain]
  all_goals try (intro k; rfl)
  · norm_num [PlasCriterion.along, projHist, solved, endDisp, du, dotProduct, prevOf,
      sum_range_succ]
  · have hne : ¬ (projHist.numSteps ≠ 0 ∧ ∀ i, projected.isDir i = false) := by
      rintro ⟨-, h⟩
      have := h 0
      simp [projected, plain] at this
    simp only [PlasProblem.criterionGradient, hne, if_false]
    have hs : projHist.stopOpt = false := rfl
    have hN : projHist.numSteps = 2 := rfl
    simp only [hs, Bool.false_eq_true, if_false]
    refine ⟨_, rfl, ?_⟩
    -- the adjoint variables of the two steps
    have hone : ∀ b : Fin 2 → ℚ, (1 : Matrix (Fin 2) (Fin 2) ℚ)⁻¹ *ᵥ b = b := by
      intro b; rw [inv_one, one_mulVec]
    have h1 : projected.adjointStep (endDisp 2 1 1) 1 projHist 1 ⟨0, 0, 0⟩ =
        ⟨fun i => if i = 1 then -1 else 0, 0, fun _ => -1⟩ := by
      simp only [PlasProblem.adjointStep, hT, transpose_one, conMat_one']
      have hl : projected.nextLocal (endDisp 2 1 1) 1 projHist 1 ⟨0, 0, 0⟩ = 0 := by
        simp [PlasProblem.nextLocal, hN]
      have hg : projected.nextGlobal (endDisp 2 1 1) 1 projHist 1 ⟨0, 0, 0⟩ = 0 := by
        simp [PlasProblem.nextGlobal, hN]
      have hlam : projected.solve 1 0 (conRhs 1 (projected.con 0) (1 : Matrix (Fin 2) (Fin 2) ℚ)
          (-((endDisp 2 1 1).fU (projHist.at 1) 1 1 +
            projected.nextGlobal (endDisp 2 1 1) 1 projHist 1 ⟨0, 0, 0⟩ -
            (projected.eq.hU (projHist.at 1) 1 1)ᵀ *ᵥ
              (projected.inv (projected.eq.hC (projHist.at 1) 1 1))ᵀ *ᵥ
                ((endDisp 2 1 1).fC (projHist.at 1) 1 1 +
                  projected.nextLocal (endDisp 2 1 1) 1 projHist 1 ⟨0, 0, 0⟩)))) =
          fun i => if i = 1 then -1 else 0 := by
        rw [hg]
        refine (hone _).trans ?_
        funext i
        fin_cases i
        · simp [conRhs, PlasProblem.con, projected, plain]
        · simp [conRhs, PlasProblem.con, projected, plain, plainEq, endDisp]
      rw [hlam, hl]
      congr 1
      · simp [endDisp, projected, plain, plainEq]
      · funext i
        norm_num [PlasProblem.rowSummed, projected, plain, mulVec, dotProduct]
        show (-1 : ℚ) / 1 = -1
        norm_num
    have h0 : projected.adjointStep (endDisp 2 1 1) 1 projHist 0
        ⟨fun i => if i = 1 then -1 else 0, 0, fun _ => -1⟩ =
        ⟨fun i => if i = 1 then -1 else 0, 0, 0⟩ := by
      simp only [PlasProblem.adjointStep, hT, transpose_one, conMat_one', if_true]
      have hl : projected.nextLocal (endDisp 2 1 1) 1 projHist 0
          ⟨fun i => if i = 1 then -1 else 0, 0, fun _ => -1⟩ = 0 := by
        simp [PlasProblem.nextLocal, hN, endDisp, projected, plain, plainEq]
      have hg : projected.nextGlobal (endDisp 2 1 1) 1 projHist 0
          ⟨fun i => if i = 1 then -1 else 0, 0, fun _ => -1⟩ = fun i => if i = 1 then 1 else 0 := by
        funext i
        fin_cases i
        · simp [PlasProblem.nextGlobal, PlasProblem.nextProj, hN, endDisp, projected, plain,
            plainEq, mulVec, dotProduct]
        · simp [PlasProblem.nextGlobal, PlasProblem.nextProj, hN, endDisp, projected, plain,
            plainEq, mulVec, dotProduct]
          show -(-1 : ℚ) = 1
          norm_num
      have hlam : projected.solve 1 0 (conRhs 1 (projected.con 0) (1 : Matrix (Fin 2) (Fin 2) ℚ)
          (-((endDisp 2 1 1).fU (projHist.at 0) 1 0 +
            projected.nextGlobal (endDisp 2 1 1) 1 projHist 0
              ⟨fun i => if i = 1 then -1 else 0, 0, fun _ => -1⟩ -
            (projected.eq.hU (projHist.at 0) 1 0)ᵀ *ᵥ
              (projected.inv (projected.eq.hC (projHist.at 0) 1 0))ᵀ *ᵥ
                ((endDisp 2 1 1).fC (projHist.at 0) 1 0 +
                  projected.nextLocal (endDisp 2 1 1) 1 projHist 0
                    ⟨fun i => if i = 1 then -1 else 0, 0, fun _ => -1⟩)))) =
          fun i => if i = 1 then -1 else 0 := by
        rw [hg]
        refine (hone _).trans ?_
        funext i
        fin_cases i
        · simp [conRhs, PlasProblem.con, projected, plain]
        · simp [conRhs, PlasProblem.con, projected, plain, plainEq, endDisp]
      rw [hlam, hl]
      congr 1
      simp [endDisp, projected, plain, plainEq]
    simp only [hN, loopDown, PlasProblem.backwardStep]
    rw [show (1 + 1 - 1 : Nat) = 1 from rfl, show (0 + 1 - 1 : Nat) = 0 from rfl, h1, h0]
    norm_num [PlasProblem.pdeGrad, projected, plain, plainEq, projHist, solved,
      PlasProblem.pressure, mulVec, dotProduct, endDisp]
    show -(-2 : ℚ) + -(-2) + -(-1) = 5
    norm_num

end Plato
