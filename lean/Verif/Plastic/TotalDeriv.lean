import Mathlib.Tactic.FinCases
import Mathlib.Tactic.IntervalCases
import Verif.Plastic.Adjoint
import Verif.Time.TotalDeriv

/-!
# The plasticity gradient as a total derivative (C35)
-/

namespace Plato

open Matrix Finset Filter Topology

section
variable {F ι κ π ν ζ η : Type} [Flt F] [Fintype ι] [DecidableEq ι] [Fintype κ]
  [DecidableEq κ] [Fintype π] [Fintype ν] [Fintype ζ]

/-- A differentiable curve through the arguments of one step. -/
structure InCurve (ca : ℝ → PlasIn ℝ ι κ) (a : PlasIn ℝ ι κ) (du dup : ι → ℝ) (dc dcp : κ → ℝ) :
    Prop where
  base : ca 0 = a
  u : HasDerivAt (fun t => (ca t).u) du 0
  up : HasDerivAt (fun t => (ca t).up) dup 0
  c : HasDerivAt (fun t => (ca t).c) dc 0
  cp : HasDerivAt (fun t => (ca t).cp) dcp 0

/-- The reported matrices are the partial derivatives of the global and local equations at `(a,p,z)`
with load multiplier `load`, step `k`. -/
structure PlasEq.IsDeriv (eq : PlasEq ℝ ι κ π ν ζ) (a : PlasIn ℝ ι κ) (p : π → ℝ) (z : ζ → ℝ)
    (load : ℝ) (k : Nat) : Prop where
  glob : ∀ ca cp cz du dup dc dcp dp dz, InCurve ca a du dup dc dcp → cp 0 = p → cz 0 = z →
    HasDerivAt cp dp 0 → HasDerivAt cz dz 0 →
    HasDerivAt (fun t => eq.r (ca t) (cp t) (cz t) load k)
      (eq.rU a p z load k *ᵥ du + eq.rUp a p z load k *ᵥ dup + eq.rC a p z load k *ᵥ dc +
        eq.rCp a p z load k *ᵥ dcp + eq.rP a p z load k *ᵥ dp + eq.rZ a p z load k *ᵥ dz) 0
  loc : ∀ ca cz du dup dc dcp dz, InCurve ca a du dup dc dcp → cz 0 = z → HasDerivAt cz dz 0 →
    HasDerivAt (fun t => eq.h (ca t) (cz t) k)
      (eq.hU a z k *ᵥ du + eq.hUp a z k *ᵥ dup + eq.hC a z k *ᵥ dc + eq.hCp a z k *ᵥ dcp +
        eq.hZ a z k *ᵥ dz) 0

/-- The equation by which the projected pressure gradient is found: row-summed matrix times the
unknown plus the residual at zero. -/
noncomputable def PlasEq.rowEq (eq : PlasEq ℝ ι κ π ν ζ) (p : π → ℝ) (n : ν → ℝ) (z : ζ → ℝ) (k : Nat) :
    π → ℝ :=
  fun i => (∑ j, eq.projP 0 n z k i j) * p i + eq.proj 0 n z k i

/-- The derivative of the row-summed projection equation at `(p,n,z)`: row sums, `projN`, and `D`
for the design direction `dz`. -/
def PlasEq.RowDeriv (eq : PlasEq ℝ ι κ π ν ζ) (p : π → ℝ) (n : ν → ℝ) (z dz : ζ → ℝ) (k : Nat)
    (D : π → ℝ) : Prop :=
  ∀ (cp : ℝ → π → ℝ) (cn : ℝ → ν → ℝ) (cz : ℝ → ζ → ℝ) (dp : π → ℝ) (dn : ν → ℝ),
    cp 0 = p → cn 0 = n → cz 0 = z →
    HasDerivAt cp dp 0 → HasDerivAt cn dn 0 → HasDerivAt cz dz 0 →
    HasDerivAt (fun t => eq.rowEq (cp t) (cn t) (cz t) k)
      (fun i => (∑ j, eq.projP p n z k i j) * dp i + (eq.projN p n z k *ᵥ dn) i + D i) 0

/-- The reported vectors are the derivatives of the criterion. -/
def PlasCriterion.IsDeriv (C : PlasCriterion ℝ ι κ ζ) (a : PlasIn ℝ ι κ) (z : ζ → ℝ) (k : Nat) :
    Prop :=
  ∀ ca cz du dup dc dcp dz, InCurve ca a du dup dc dcp → cz 0 = z → HasDerivAt cz dz 0 →
    HasDerivAt (fun t => C.val (ca t) (cz t) k)
      (C.fU a z k ⬝ᵥ du + C.fUp a z k ⬝ᵥ dup + C.fC a z k ⬝ᵥ dc + C.fCp a z k ⬝ᵥ dcp +
        C.fZ a z k ⬝ᵥ dz) 0

/-- The arguments of step `k` of given histories. -/
noncomputable def histIn (u : Nat → ι → ℝ) (c : Nat → κ → ℝ) (k : Nat) : PlasIn ℝ ι κ :=
  ⟨u k, prevOf u k, c k, prevOf c k⟩

/-- The histories `(u,c,p)` satisfy the forward equations of `N` steps for the design `z`, with
prescribed values `bc k i` and load multipliers `load k`. -/
structure PlasSolves (P : PlasProblem F ℝ ι κ π ν ζ η) (N : Nat) (z : ζ → ℝ)
    (bc : Nat → ι → ℝ) (load : Nat → ℝ) (u : Nat → ι → ℝ) (c : Nat → κ → ℝ) (p : Nat → π → ℝ) :
    Prop where
  fixed : ∀ k, k < N → ∀ i, P.isDir i = true → u k i = bc k i
  glob : ∀ k, k < N → ∀ i, P.isDir i = false →
    P.eq.r (histIn u c k) (p k) z (load k) k i = 0
  loc : ∀ k, k < N → P.eq.h (histIn u c k) z k = 0
  proj0 : p 0 = 0
  proj : ∀ k, 1 ≤ k → k < N → P.eq.rowEq (p k) (P.pressure (prevOf u k)) z k = 0

omit [Fintype ι] [DecidableEq ι] in
theorem hasDerivAt_prevOf {u : ℝ → Nat → ι → ℝ} {du : Nat → ι → ℝ} [Fintype ι]
    (h : ∀ k, HasDerivAt (fun t => u t k) (du k) 0) (k : Nat) :
    HasDerivAt (fun t => prevOf (u t) k) (prevOf du k) 0 := by
  cases k with
  | zero => exact hasDerivAt_const _ _
  | succ k => exact h k

theorem unique_zero {f : ℝ → ℝ} {f' v : ℝ} (h : HasDerivAt f f' 0) (he : ∀ᶠ t in 𝓝 0, f t = v) :
    f' = 0 :=
  (h.congr_of_eventuallyEq (he.mono fun _ ht => ht.symm : (fun _ => v) =ᶠ[𝓝 0] f)).unique
    (hasDerivAt_const _ _)

/-- **C35** as a total derivative: along any differentiable family of histories that satisfies the
forward equations (prescribed values and load multipliers fixed), the derivative of the summed
criterion is the returned gradient applied to the design direction.  Missing from the full
statement, where it is false: design- or state-dependent loads (`LoadFree`), and designs entering
the projection (`hz`); see `C35_false_load`, `C35_false_projection`. -/
theorem PlasProblem.C35_total_partial (P : PlasProblem F ℝ ι κ π ν ζ η)
    (C : PlasCriterion ℝ ι κ ζ) (z dz : ζ → ℝ) (s : PlasState ℝ ι κ π η)
    (bc : Nat → ι → ℝ) (load : Nat → ℝ)
    (u : ℝ → Nat → ι → ℝ) (c : ℝ → Nat → κ → ℝ) (p : ℝ → Nat → π → ℝ)
    (du : Nat → ι → ℝ) (dc : Nat → κ → ℝ) (dp : Nat → π → ℝ)
    (hu : ∀ k, HasDerivAt (fun t => u t k) (du k) 0)
    (hc : ∀ k, HasDerivAt (fun t => c t k) (dc k) 0)
    (hp : ∀ k, HasDerivAt (fun t => p t k) (dp k) 0)
    (hsu : s.u = u 0) (hsc : s.c = c 0) (hsp : s.p = p 0)
    (hsol : ∀ᶠ t in 𝓝 (0 : ℝ),
      PlasSolves P s.numSteps (line z dz t) bc load (u t) (c t) (p t))
    (hstop : s.stopOpt = false) (hdir : ∃ i, P.isDir i = true)
    (hr : P.AdjointReady z s) (hl : P.LoadFree z s load)
    (hd : ∀ k, k < s.numSteps → P.eq.IsDeriv (s.at k) (s.p k) z (load k) k)
    (hrow : ∀ k, 1 ≤ k → k < s.numSteps →
      P.eq.RowDeriv (s.p k) (P.pressure (prevOf s.u k)) z dz k
        (P.eq.projZ (s.p k) (P.pressure (s.u k)) z k *ᵥ dz))
    (hC : ∀ k, k < s.numSteps → C.IsDeriv (s.at k) z k) :
    ∃ g, P.criterionGradient C z s = Res.ok g ∧
      HasDerivAt (fun t => ∑ k ∈ range s.numSteps, C.val (histIn (u t) (c t) k) (line z dz t) k)
        (g ⬝ᵥ dz) 0 := by
  have hin : ∀ k, InCurve (fun t => histIn (u t) (c t) k) (s.at k) (du k) (prevOf du k) (dc k)
      (prevOf dc k) := by
    intro k
    refine ⟨?_, hu k, hasDerivAt_prevOf hu k, hc k, hasDerivAt_prevOf hc k⟩
    simp only [histIn, PlasState.at, hsu, hsc]
  have hpr : ∀ k, HasDerivAt (fun t => P.pressure (prevOf (u t) k)) (P.pressure (prevOf du k)) 0 := by
    intro k
    refine hasDerivAt_pi.2 fun j => ?_
    exact (hasDerivAt_pi.1 (hasDerivAt_prevOf hu k)) (P.pres j)
  have ht : PlasTangent P z dz s load
      (fun k => P.eq.projZ (s.p k) (P.pressure (s.u k)) z k *ᵥ dz) du dc dp := by
    refine ⟨?_, ?_, ?_, ?_, ?_⟩
    · intro k hk i hi
      exact unique_zero ((hasDerivAt_pi.1 (hu k)) i) (hsol.mono fun t h => h.fixed k hk i hi)
    · intro k hk i hi
      have h1 := (hd k hk).glob _ (fun t => p t k) (line z dz) _ _ _ _ _ dz (hin k)
        (by rw [hsp]) (line_zero z dz) (hp k) (hasDerivAt_line z dz)
      exact unique_zero ((hasDerivAt_pi.1 h1) i) (hsol.mono fun t h => h.glob k hk i hi)
    · intro k hk
      have h1 := (hd k hk).loc _ (line z dz) _ _ _ _ dz (hin k) (line_zero z dz)
        (hasDerivAt_line z dz)
      funext i
      exact unique_zero ((hasDerivAt_pi.1 h1) i)
        (hsol.mono fun t h => congrFun (h.loc k hk) i)
    · funext i
      exact unique_zero ((hasDerivAt_pi.1 (hp 0)) i) (hsol.mono fun t h => congrFun h.proj0 i)
    · intro k h1 hk i
      have h2 := hrow k h1 hk (fun t => p t k) (fun t => P.pressure (prevOf (u t) k)) (line z dz)
        (dp k) (P.pressure (prevOf du k)) (by rw [hsp]) (by rw [hsu]) (line_zero z dz) (hp k)
        (hpr k) (hasDerivAt_line z dz)
      exact unique_zero ((hasDerivAt_pi.1 h2) i)
        (hsol.mono fun t h => congrFun (h.proj k h1 hk) i)
  obtain ⟨g, hg, he⟩ := PlasProblem.C35_partial C z dz s load _ du dc dp hstop hdir ht hr hl
    (fun _ _ _ => rfl)
  refine ⟨g, hg, ?_⟩
  rw [he]
  have := HasDerivAt.fun_sum (u := range s.numSteps) fun k hk =>
    hC k (mem_range.1 hk) _ (line z dz) _ _ _ _ dz (hin k) (line_zero z dz) (hasDerivAt_line z dz)
  exact this

end

/-! ## A case that meets the hypotheses -/

/-- Two degrees of freedom, the first one prescribed; `r_k = u_k - (k+1) z - p_k`, local equation
`c = z`, projection `p = n`. -/
noncomputable def coupled : PlasProblem ℚ ℝ (Fin 2) Unit Unit Unit Unit Unit where
  eq :=
    { r := fun a p z _ k i => a.u i - (k + 1) * z () - p ()
      rU := fun _ _ _ _ _ => 1
      rUp := fun _ _ _ _ _ => 0
      rC := fun _ _ _ _ _ => 0
      rCp := fun _ _ _ _ _ => 0
      rP := fun _ _ _ _ _ _ _ => -1
      rZ := fun _ _ _ _ k _ _ => -(k + 1)
      h := fun a z _ i => a.c i - z ()
      hU := fun _ _ _ => 0
      hUp := fun _ _ _ => 0
      hC := fun _ _ _ => 1
      hCp := fun _ _ _ => 0
      hZ := fun _ _ _ _ _ => -1
      proj := fun p n _ _ _ => p () - n ()
      projP := fun _ _ _ _ _ _ => 1
      projN := fun _ _ _ _ _ _ => -1
      projZ := fun _ _ _ _ => 0
      updLocal := fun _ z _ _ => z () }
  solve := fun A _ b => A⁻¹ *ᵥ b
  inv := fun A => A⁻¹
  isDir := fun i => decide (i = 0)
  bc := fun _ _ => 0
  pres := fun _ => 1
  nodeDofs := fun _ => []
  nrm := fun _ => 0
  nr := ⟨0, 0, 0, false⟩
  endTime := 1
  maxSteps := 1
  mult := 1

/-- Free displacement of the second step plus the local variable of the last step times the
design. -/
noncomputable def coupledCrit : PlasCriterion ℝ (Fin 2) Unit Unit where
  val := fun a z k => if k = 1 then a.u 1 + a.c () * z () else 0
  fU := fun _ _ k i => if k = 1 ∧ i = 1 then 1 else 0
  fUp := fun _ _ _ => 0
  fC := fun _ z k _ => if k = 1 then z () else 0
  fCp := fun _ _ _ => 0
  fZ := fun a _ k _ => if k = 1 then a.c () else 0

noncomputable def coupledU (t : ℝ) (k : Nat) (i : Fin 2) : ℝ :=
  if i = 1 then (if k = 0 then 1 + t else 3 + 3 * t) else 0
noncomputable def coupledP (t : ℝ) (k : Nat) (_ : Unit) : ℝ := if k = 0 then 0 else 1 + t

noncomputable def coupledHist : PlasState ℝ (Fin 2) Unit Unit Unit where
  u := coupledU 0
  c := fun _ _ => 1
  p := coupledP 0
  react := fun _ => 0
  dirVals := 0
  prevDir := 0
  load := 0
  numSteps := 2
  stepSize := 1 / 2
  maxReached := false
  stopOpt := false
  log := []

theorem hasDerivAt_affine (a b : ℝ) : HasDerivAt (fun t : ℝ => a + b * t) b 0 := by
  simpa using ((hasDerivAt_id (0 : ℝ)).const_mul b).const_add a

/-- The hypotheses of `C35_total_partial` hold for two steps of `coupled`. -/
example : ∃ g, coupled.criterionGradient coupledCrit 1 coupledHist = Res.ok g ∧
    HasDerivAt (fun t => ∑ k ∈ range 2,
      coupledCrit.val (histIn (coupledU t) (fun _ _ => 1 + t) k) (line 1 1 t) k) (g ⬝ᵥ 1) 0 := by
  have hT : ∀ k, coupled.tangent (coupledHist.at k) (coupledHist.p k) 1 coupledHist.load k = 1 := by
    intro k
    simp [PlasProblem.tangent, coupled]
  refine coupled.C35_total_partial coupledCrit 1 1 coupledHist 0 (fun _ => 1) coupledU
    (fun t _ _ => 1 + t) coupledP (fun k i => if i = 1 then (if k = 0 then 1 else 3) else 0)
    (fun _ _ => 1) (fun k _ => if k = 0 then 0 else 1) ?_ ?_ ?_ rfl ?_ rfl
    (Filter.Eventually.of_forall fun t => ⟨?_, ?_, ?_, ?_, ?_⟩) rfl ⟨0, by simp [coupled]⟩
    ⟨LinSolver.exact_inv, ?_, ?_, ?_⟩
    ⟨fun _ => rfl, fun _ => rfl, fun _ => rfl, fun _ => rfl, fun _ => rfl, fun _ => rfl⟩
    (fun k _ => ⟨?_, ?_⟩) ?_ ?_
  · intro k
    refine hasDerivAt_pi.2 fun i => ?_
    fin_cases i
    · simpa [coupledU] using hasDerivAt_const (0 : ℝ) (0 : ℝ)
    · by_cases hk : k = 0
      · simpa [coupledU, hk] using hasDerivAt_affine 1 1
      · simpa [coupledU, hk] using hasDerivAt_affine 3 3
  · intro k
    refine hasDerivAt_pi.2 fun i => ?_
    simpa using hasDerivAt_affine 1 1
  · intro k
    refine hasDerivAt_pi.2 fun i => ?_
    by_cases hk : k = 0
    · simpa [coupledP, hk] using hasDerivAt_const (0 : ℝ) (0 : ℝ)
    · simpa [coupledP, hk] using hasDerivAt_affine 1 1
  · funext k i; simp [coupledHist]
  · intro k _ i hi
    fin_cases i
    · simp [coupledU]
    · simp [coupled] at hi
  · intro k hk i hi
    have hk : k < 2 := hk
    fin_cases i
    · simp [coupled] at hi
    · interval_cases k <;> simp [coupled, histIn, coupledU, coupledP, line] <;> ring
  · intro k _
    funext i
    simp [coupled, histIn, line]
  · funext i; simp [coupledP]
  · intro k h1 hk
    have hk : k < 2 := hk
    interval_cases k
    funext i
    simp [PlasEq.rowEq, coupled, coupledP, coupledU, PlasProblem.pressure, prevOf]
  · intro k _; simp [coupled]
  · intro k _
    rw [hT, transpose_one]
    have : conMat (coupled.con 0) (1 : Matrix (Fin 2) (Fin 2) ℝ) = 1 := by
      funext i j
      simp [conMat, Matrix.one_apply]
    rw [this, det_one]
    exact isUnit_one
  · intro k h1 h2 i
    simp [coupled]
  · intro ca cp cz du dup dc dcp dp dz hin _ _ hp hz
    refine hasDerivAt_pi.2 fun i => ?_
    have h := (((hasDerivAt_pi.1 hin.u) i).sub (((hasDerivAt_pi.1 hz) ()).const_mul
      ((k : ℝ) + 1))).sub ((hasDerivAt_pi.1 hp) ())
    refine (h.congr_deriv ?_)
    simp [coupled, mulVec, dotProduct]
    ring
  · intro ca cz du dup dc dcp dz hin _ hz
    refine hasDerivAt_pi.2 fun i => ?_
    have h := (((hasDerivAt_pi.1 hin.c) i).sub ((hasDerivAt_pi.1 hz) ()))
    refine (h.congr_deriv ?_)
    simp [coupled, mulVec, dotProduct]
    ring
  · intro k _ _ cp cn cz dp dn _ _ _ hp hn _
    refine hasDerivAt_pi.2 fun i => ?_
    have h := (((hasDerivAt_pi.1 hp) i).sub ((hasDerivAt_pi.1 hn) ()))
    refine (h.congr_deriv ?_).congr_of_eventuallyEq (Filter.Eventually.of_forall fun t => ?_)
    · simp [coupled, mulVec, dotProduct]
      ring
    · simp [coupled, PlasEq.rowEq]
      ring
  · intro k _ ca cz du dup dc dcp dz hin h0 hz
    by_cases hk : k = 1
    · subst hk
      have h := ((hasDerivAt_pi.1 hin.u) 1).add
        (((hasDerivAt_pi.1 hin.c) ()).mul ((hasDerivAt_pi.1 hz) ()))
      refine (h.congr_deriv ?_).congr_of_eventuallyEq (Filter.Eventually.of_forall fun t => ?_)
      · rw [hin.base, h0]
        simp [coupledCrit, dotProduct]
        ring
      · simp [coupledCrit]
    · have : (fun t => coupledCrit.val (ca t) (cz t) k) = fun _ => 0 := by
        funext t; simp [coupledCrit, hk]
      rw [this]
      refine (hasDerivAt_const _ _).congr_deriv ?_
      simp [coupledCrit, hk, dotProduct]

end Plato
