import Mathlib.Tactic.FieldSimp
import Mathlib.Algebra.BigOperators.Fin
import Verif.Plastic.Model

/-!
# Retries, load increments (C33, C34)
-/

namespace Plato

open Matrix Finset

section
variable {F : Type} [Flt F]

/-- Invariant rule for the Newton-Raphson loop. -/
theorem nrLoop_inv {σ β : Type} {p : NrParams F} {S : NrSys F σ β} (I : Nat → σ → Prop)
    (hu : ∀ it s e s', I it s → S.eval it s = Res.ok e → S.upd it e.2 s = Res.ok s' →
      I (it + 1) s') :
    ∀ (fuel it : Nat) (o : NrOut F) (l : List F) (s : σ) (r : NrResult F σ), l.length = it →
      I it s → nrLoop p S fuel it o l s = Res.ok (some r) →
      1 ≤ r.norms.length ∧ I (r.norms.length - 1) r.state := by
  intro fuel
  induction fuel with
  | zero => intro it o l s r _ _ h; cases h
  | succ fuel ih =>
    intro it o l s r hl hI h
    rw [nrLoop] at h
    rcases he : S.eval it s with e | msg | _ <;> rw [he] at h
    swap
    · cases h
    swap
    · cases h
    rw [Res.ok_bind] at h
    rcases hc : computeStopping p it { o with cur := e.1 } with o' | msg | _ <;> rw [hc] at h
    swap
    · cases h
    swap
    · cases h
    rw [Res.ok_bind] at h
    rcases hk : checkStopping p it o' with _ | c <;> rw [hk] at h
    · simp only at h
      rcases hs : S.upd it e.2 s with s' | msg | _ <;> rw [hs] at h
      swap
      · cases h
      swap
      · cases h
      rw [Res.ok_bind] at h
      exact ih _ _ _ _ _ (by simp [hl]) (hu it s e s' hI he hs) h
    · simp only [Res.ok.injEq, Option.some.injEq] at h
      subst h
      simpa [hl] using hI

end

section
variable {F K ι κ π ν ζ η : Type} [Flt F] [Field K] [Fintype ι] [DecidableEq ι] [Fintype κ]
  [Fintype π] [Fintype ν] [Fintype ζ]

namespace PlasProblem
variable {P : PlasProblem F K ι κ π ν ζ η}

/-- Effect of one pseudo-time step. -/
structure StepRel (P : PlasProblem F K ι κ π ν ζ η) (z : ζ → K) (k : Nat)
    (s s' : PlasState K ι κ π η) (b : Bool) (r : NrResult F ((ι → K) × (κ → K))) : Prop where
  newton : P.newton z (prevOf s.u k) (prevOf s.c k) (s.p k) (s.stepSize * ((k + 1 : Nat) : K))
    (P.bc (s.stepSize * ((k + 1 : Nat) : K)) - (if k ≠ 0 then s.dirVals else 0)) k = Res.ok r
  flag : b = didConverge r.crit
  u : s'.u = Function.update s.u k r.state.1
  c : s'.c = Function.update s.c k r.state.2
  dirVals : s'.dirVals = P.bc (s.stepSize * ((k + 1 : Nat) : K))
  load : s'.load = 0
  numSteps : s'.numSteps = s.numSteps
  stepSize : s'.stepSize = s.stepSize
  maxReached : s'.maxReached = s.maxReached
  stopOpt : s'.stopOpt = s.stopOpt
  p : ∀ j, j ≤ k → s'.p j = s.p j
  react : s'.react = Function.update s.react k fun n =>
    s.react k n + ((P.nodeDofs n).map (P.eq.r (s'.at k) (s.p k) z 0 k)).sum
  log : s'.log = s.log ++ [⟨P.bc (s.stepSize * ((k + 1 : Nat) : K)) -
    (if k ≠ 0 then s.dirVals else 0), s.stepSize * ((k + 1 : Nat) : K), r.norms.length⟩]

theorem forwardStep_rel {z : ζ → K} {k : Nat} {s s' : PlasState K ι κ π η} {b : Bool}
    (h : P.forwardStep z k s = Res.ok (s', b)) : ∃ r, P.StepRel z k s s' b r := by
  simp only [forwardStep, multipliers] at h
  rcases hn : P.newton z (prevOf s.u k) (prevOf s.c k) (s.p k) (s.stepSize * ((k + 1 : Nat) : K))
    (P.bc (s.stepSize * ((k + 1 : Nat) : K)) - (if k ≠ 0 then s.dirVals else 0)) k
    with r | msg | _ <;> rw [hn] at h
  swap
  · cases h
  swap
  · cases h
  rw [Res.ok_bind] at h
  refine ⟨r, ?_⟩
  by_cases hc : didConverge r.crit = false
  · rw [if_pos hc] at h
    cases h
    constructor <;> first | rfl | exact hn | exact hc.symm | exact fun _ _ => rfl
  · rw [if_neg hc] at h
    have hc' : true = didConverge r.crit := by
      cases hd : didConverge r.crit
      · exact absurd hd hc
      · rfl
    by_cases hp : s.numSteps ≤ k + 1
    · simp only [project, reaction, hp, if_true] at h
      cases h
      constructor <;> first | rfl | exact hn | exact hc' | exact fun _ _ => rfl
    · simp only [project, reaction, hp, if_false] at h
      cases h
      constructor <;> first | rfl | exact hn | exact hc' | skip
      intro j hj
      exact Function.update_of_ne (by omega) _ _

theorem forwardStep_of_newton {z : ζ → K} {k : Nat} {s : PlasState K ι κ π η}
    {r : NrResult F ((ι → K) × (κ → K))}
    (h : P.newton z (prevOf s.u k) (prevOf s.c k) (s.p k) (s.stepSize * ((k + 1 : Nat) : K))
      (P.bc (s.stepSize * ((k + 1 : Nat) : K)) - (if k ≠ 0 then s.dirVals else 0)) k = Res.ok r) :
    ∃ s1, P.forwardStep z k s = Res.ok (s1, didConverge r.crit) := by
  simp only [forwardStep, multipliers]
  rw [h, Res.ok_bind]
  cases hc : didConverge r.crit
  · simp only [if_true]
    exact ⟨_, rfl⟩
  · simp only [Bool.true_eq_false, if_false]
    exact ⟨_, rfl⟩

theorem forwardLoop_frame {z : ζ → K} : ∀ (n k : Nat) (s s' : PlasState K ι κ π η) (b : Bool),
    P.forwardLoop z n k s = Res.ok (s', b) →
    s'.numSteps = s.numSteps ∧ s'.stepSize = s.stepSize ∧ s'.maxReached = s.maxReached ∧
      s'.stopOpt = s.stopOpt := by
  intro n
  induction n with
  | zero => intro k s s' b h; cases h; exact ⟨rfl, rfl, rfl, rfl⟩
  | succ n ih =>
    intro k s s' b h
    rw [forwardLoop] at h
    rcases hs : P.forwardStep z k s with ⟨s1, b1⟩ | msg | _ <;> rw [hs] at h
    swap
    · cases h
    swap
    · cases h
    rw [Res.ok_bind] at h
    obtain ⟨r, hr⟩ := forwardStep_rel hs
    split_ifs at h
    · cases h
      exact ⟨hr.numSteps, hr.stepSize, hr.maxReached, hr.stopOpt⟩
    · obtain ⟨a1, a2, a3, a4⟩ := ih _ _ _ _ h
      exact ⟨a1.trans hr.numSteps, a2.trans hr.stepSize, a3.trans hr.maxReached,
        a4.trans hr.stopOpt⟩

theorem forward_frame {z : ζ → K} {s s' : PlasState K ι κ π η} {b : Bool}
    (h : P.forward z s = Res.ok (s', b)) :
    s'.numSteps = s.numSteps ∧ s'.stepSize = s.stepSize ∧ s'.maxReached = s.maxReached ∧
      s'.stopOpt = s.stopOpt := by
  unfold forward at h
  have h := forwardLoop_frame _ _ _ _ _ h
  exact h

/-! ## C33 -/

/-- Specification of the outcome of `solution`: a converged history on a uniform grid from 0 to the
end time, or a reported failure with the maximum number of steps. -/
def Outcome (P : PlasProblem F K ι κ π ν ζ η) (r : PlasState K ι κ π η × Bool) : Prop :=
  r.1.stepSize * (r.1.numSteps : K) = P.endTime ∧
    (r.2 = true ∨ (r.1.stopOpt = true ∧ r.1.numSteps = P.maxSteps))

theorem resize_spec [CharZero K] {s : PlasState K ι κ π η} (hn : 1 ≤ s.numSteps) (hm : 1 ≤ P.mult)
    (hmax : 1 ≤ P.maxSteps) :
    1 ≤ (P.resize s).numSteps ∧ (P.resize s).numSteps ≤ P.maxSteps ∧
    (s.numSteps ≤ (P.resize s).numSteps ∨ (P.resize s).numSteps = P.maxSteps) ∧
    (P.resize s).stepSize * ((P.resize s).numSteps : K) = P.endTime ∧
    ((P.resize s).maxReached = true ↔
      s.maxReached = true ∨ (P.resize s).numSteps = P.maxSteps) := by
  have h1 : s.numSteps ≤ ⌊(s.numSteps : ℚ) * P.mult⌋₊ := by
    refine Nat.le_floor ?_
    have : (0 : ℚ) ≤ s.numSteps := Nat.cast_nonneg _
    nlinarith
  by_cases h : P.maxSteps ≤ ⌊(s.numSteps : ℚ) * P.mult⌋₊
  · have e1 : (P.resize s).numSteps = P.maxSteps := by simp [resize, h]
    have e2 : (P.resize s).stepSize = P.endTime / (P.maxSteps : K) := by simp [resize, h]
    have e3 : (P.resize s).maxReached = true := by simp [resize, h]
    have : (P.maxSteps : K) ≠ 0 := by exact_mod_cast (by omega : P.maxSteps ≠ 0)
    rw [e1, e2, e3]
    exact ⟨hmax, le_rfl, Or.inr rfl, by field_simp, by simp⟩
  · have e1 : (P.resize s).numSteps = ⌊(s.numSteps : ℚ) * P.mult⌋₊ := by simp [resize, h]
    have e2 : (P.resize s).stepSize =
        P.endTime / ((⌊(s.numSteps : ℚ) * P.mult⌋₊ : Nat) : K) := by simp [resize, h]
    have e3 : (P.resize s).maxReached = s.maxReached := by simp [resize, h]
    rw [e1, e2, e3]
    have hne : ⌊(s.numSteps : ℚ) * P.mult⌋₊ ≠ P.maxSteps := by omega
    have : ((⌊(s.numSteps : ℚ) * P.mult⌋₊ : Nat) : K) ≠ 0 := by
      exact_mod_cast (by omega : ⌊(s.numSteps : ℚ) * P.mult⌋₊ ≠ 0)
    exact ⟨by omega, by omega, Or.inl h1, by field_simp, by simp [hne]⟩

/-- **C33** (part): started with at least one step, on a grid that ends at the end time, with a
multiplier such that multiplying the initial number of steps and truncating increases it, the retry
loop ends after at most `max - initial + 1` attempts, whatever the outcomes of the Newton-Raphson
solver, and the outcome is as specified.  The grid and growth hypotheses are what is missing for
the property; `C33_false_grid` and `C33_false_multiplier` show that they cannot be dropped. -/
theorem C33_partial [CharZero K] (z : ζ → K) (s : PlasState K ι κ π η) (hn : 1 ≤ s.numSteps)
    (hle : s.numSteps ≤ P.maxSteps)
    (hgrid : s.stepSize * (s.numSteps : K) = P.endTime)
    (hreach : s.maxReached = true → s.numSteps = P.maxSteps)
    (hm : 1 ≤ P.mult) (hgrow : (s.numSteps : ℚ) + 1 ≤ s.numSteps * P.mult)
    (fuel : Nat) (hf : P.maxSteps - s.numSteps + 2 ≤ fuel) :
    P.solution z fuel s ≠ Res.ok none ∧
    ∀ r, P.solution z fuel s = Res.ok (some r) → P.Outcome r := by
  induction fuel generalizing s with
  | zero => omega
  | succ fuel ih =>
    rw [solution]
    rcases hs : P.forward z s with ⟨s1, b1⟩ | msg | _
    swap
    · simp
    swap
    · simp
    rw [Res.ok_bind]
    obtain ⟨a1, a2, a3, a4⟩ := forward_frame hs
    have hg1 : s1.stepSize * (s1.numSteps : K) = P.endTime := by rw [a1, a2, hgrid]
    simp only
    split_ifs with c1 c2
    · simp only [ne_eq, Res.ok.injEq, reduceCtorEq, not_false_eq_true, true_and, Option.some.injEq]
      rintro r rfl
      exact ⟨hg1, Or.inl c1⟩
    · simp only [ne_eq, Res.ok.injEq, reduceCtorEq, not_false_eq_true, true_and, Option.some.injEq]
      rintro r rfl
      refine ⟨hg1, Or.inr ⟨rfl, ?_⟩⟩
      simp only
      rw [a1]
      exact hreach (by rw [← a3]; exact c2)
    · obtain ⟨b1, b2, b3, b4, b5⟩ := resize_spec (P := P) (s := s1) (by omega) hm (by omega)
      have hgrow1 : s.numSteps + 1 ≤ ⌊(s1.numSteps : ℚ) * P.mult⌋₊ := by
        rw [a1]
        refine Nat.le_floor ?_
        push_cast
        exact hgrow
      by_cases hfull : (P.resize s1).numSteps = P.maxSteps
      · -- the next attempt is the last one
        obtain ⟨fuel, rfl⟩ : ∃ g, fuel = g + 1 := ⟨fuel - 1, by omega⟩
        rw [solution]
        rcases hs2 : P.forward z (P.resize s1) with ⟨s2, b2'⟩ | msg | _
        swap
        · simp
        swap
        · simp
        rw [Res.ok_bind]
        obtain ⟨e1, e2, e3, e4⟩ := forward_frame hs2
        have hg2 : s2.stepSize * (s2.numSteps : K) = P.endTime := by rw [e1, e2, b4]
        have hr2 : s2.maxReached = true := by rw [e3]; exact b5.2 (Or.inr hfull)
        simp only [hr2, if_true]
        split_ifs with c3
        · simp only [ne_eq, Res.ok.injEq, reduceCtorEq, not_false_eq_true, true_and,
            Option.some.injEq]
          rintro r rfl
          exact ⟨hg2, Or.inl c3⟩
        · simp only [ne_eq, Res.ok.injEq, reduceCtorEq, not_false_eq_true, true_and,
            Option.some.injEq]
          rintro r rfl
          exact ⟨hg2, Or.inr ⟨rfl, e1.trans hfull⟩⟩
      · have hnew : s.numSteps + 1 ≤ (P.resize s1).numSteps := by
          have : (P.resize s1).numSteps = ⌊(s1.numSteps : ℚ) * P.mult⌋₊ := by
            simp only [resize] at hfull ⊢
            by_cases h : P.maxSteps ≤ ⌊(s1.numSteps : ℚ) * P.mult⌋₊
            · simp [h] at hfull
            · simp [h]
          omega
        refine ih (P.resize s1) b1 b2 b4 ?_ ?_ (by omega)
        · intro h
          rcases b5.1 h with h | h
          · exact absurd h c2
          · exact h
        · have hnq : (s.numSteps : ℚ) ≤ (P.resize s1).numSteps := by exact_mod_cast (by omega)
          have hpos : (0 : ℚ) < s.numSteps := by exact_mod_cast hn
          have h1 : 1 ≤ (s.numSteps : ℚ) * (P.mult - 1) := by linarith
          have h2 : (s.numSteps : ℚ) * (P.mult - 1) ≤ (P.resize s1).numSteps * (P.mult - 1) :=
            mul_le_mul_of_nonneg_right hnq (by linarith)
          linarith

/-- A problem created with an initial number of steps below the maximum meets the hypotheses on the
state in `C33_partial`. -/
theorem create_ready [CharZero K] (n : Nat) (hn : 1 ≤ n) (hlt : n < P.maxSteps) :
    (P.create n).numSteps = n ∧ (P.create n).stepSize * ((P.create n).numSteps : K) = P.endTime ∧
      (P.create n).maxReached = false := by
  have h : ¬ P.maxSteps ≤ n := by omega
  have h0 : (n : K) ≠ 0 := by exact_mod_cast (by omega : n ≠ 0)
  simp only [create, h, if_false, decide_false, true_and, and_true]
  field_simp

/-- `solution` on a created problem, initial steps below the maximum. -/
theorem C33_created_partial [CharZero K] (z : ζ → K) (n : Nat) (hn : 1 ≤ n) (hlt : n < P.maxSteps)
    (hm : 1 ≤ P.mult) (hgrow : (n : ℚ) + 1 ≤ n * P.mult) :
    P.solution z (P.maxSteps - n + 2) (P.create n) ≠ Res.ok none ∧
    ∀ r, P.solution z (P.maxSteps - n + 2) (P.create n) = Res.ok (some r) → P.Outcome r := by
  obtain ⟨h1, h2, h3⟩ := create_ready (P := P) n hn hlt
  exact C33_partial z _ (by omega) (by omega) h2 (by simp [h3]) hm (by rw [h1]; exact hgrow) _
    (by omega)

/-! ## C34 -/

/-- What holds after `k` successful pseudo-time steps of size `dt`. -/
structure LoadInv (P : PlasProblem F K ι κ π ν ζ η) (dt : K) (k : Nat) (s : PlasState K ι κ π η) :
    Prop where
  size : s.stepSize = dt
  len : s.log.length = k
  last : 0 < k → s.dirVals = P.bc (dt * (k : K))
  /-- the increments add up to the prescribed values -/
  sum : 0 < k → (s.log.map StepLog.incr).sum = P.bc (dt * (k : K))
  /-- the load multiplier of step `j` is the pseudo time at its end -/
  loads : ∀ j (hj : j < s.log.length), s.log[j].load = dt * ((j + 1 : Nat) : K)

theorem LoadInv.step {dt : K} {k : Nat} {s s' : PlasState K ι κ π η} {b : Bool} {z : ζ → K}
    {r : NrResult F ((ι → K) × (κ → K))} (h : P.LoadInv dt k s) (hr : P.StepRel z k s s' b r) :
    P.LoadInv dt (k + 1) s' := by
  have hd := h.size
  refine ⟨hr.stepSize.trans h.size, ?_, ?_, ?_, ?_⟩
  · rw [hr.log, List.length_append, h.len]; rfl
  · intro _; rw [hr.dirVals, hd]
  · intro _
    rw [hr.log, List.map_append, List.sum_append, hd]
    rcases Nat.eq_zero_or_pos k with hk | hk
    · subst hk
      have : s.log = [] := List.length_eq_zero_iff.1 h.len
      simp [this]
    · have : k ≠ 0 := by omega
      rw [h.sum hk]
      simp [this, h.last hk]
  · intro j hj
    simp only [hr.log] at hj ⊢
    rw [List.getElem_append]
    split
    · exact h.loads j _
    · have : j = k := by
        have := h.len
        simp only [List.length_append, List.length_cons, List.length_nil] at hj
        omega
      subst this
      simp [hd]

theorem forwardLoop_load {dt : K} {z : ζ → K} : ∀ (n k : Nat) (s s' : PlasState K ι κ π η),
    P.LoadInv dt k s → P.forwardLoop z n k s = Res.ok (s', true) → P.LoadInv dt (k + n) s' := by
  intro n
  induction n with
  | zero => intro k s s' hi h; cases h; exact hi
  | succ n ih =>
    intro k s s' hi h
    rw [forwardLoop] at h
    rcases hs : P.forwardStep z k s with ⟨s1, b1⟩ | msg | _ <;> rw [hs] at h
    swap
    · cases h
    swap
    · cases h
    rw [Res.ok_bind] at h
    obtain ⟨r, hr⟩ := forwardStep_rel hs
    split_ifs at h with hb
    · cases h; cases hb
    · have := ih _ _ _ (hi.step hr) h
      rwa [Nat.add_assoc, Nat.add_comm 1 n] at this

/-- **C34** (multipliers): in a successful forward solve the prescribed increments handed to the
Newton-Raphson solver add up to the prescribed values at the end of the pseudo-time grid, and the
load multiplier of the last step is the end of the grid - for every number of steps, every old
content of the members, every load function. -/
theorem C34_multipliers (z : ζ → K) (s s' : PlasState K ι κ π η) (hn : 0 < s.numSteps)
    (h : P.forward z s = Res.ok (s', true)) :
    (s'.log.map StepLog.incr).sum = P.bc (s.stepSize * (s.numSteps : K)) ∧
    s'.log.length = s.numSteps ∧
    ∀ j (hj : j < s'.log.length), s'.log[j].load = s.stepSize * ((j + 1 : Nat) : K) := by
  unfold forward at h
  have := forwardLoop_load (dt := s.stepSize) s.numSteps 0 (clear s) s' ⟨rfl, rfl, by simp, by simp, by simp [clear]⟩ h
  rw [Nat.zero_add] at this
  exact ⟨this.sum hn, this.len, this.loads⟩

/-- The Newton-Raphson solver changes a constrained degree of freedom by its prescribed increment,
as soon as it makes one update. -/
theorem newton_applies (hsol : P.solve.Exact) (z : ζ → K) (up : ι → K) (cp : κ → K) (p : π → K)
    (load : K) (incr : ι → K) (k : Nat)
    (hdet : ∀ a, IsUnit (conMat (P.con 0) (P.tangent a p z load k)).det)
    (r : NrResult F ((ι → K) × (κ → K))) (h : P.newton z up cp p load incr k = Res.ok r) :
    ∀ i, P.isDir i = true →
      r.state.1 i = up i + (if r.norms.length ≤ 1 then 0 else incr i) := by
  simp only [newton] at h
  rcases hl : nrLoop P.nr (P.nrSys z up cp p load incr k) (P.nr.maxIter.toNat + 1) 0 NrOut.init []
    (up, P.eq.updLocal ⟨up, up, cp, cp⟩ z k) with ro | msg | _ <;> rw [hl] at h
  swap
  · cases h
  swap
  · cases h
  rw [Res.ok_bind] at h
  rcases ro with _ | r'
  · cases h
  simp only [Res.ok.injEq] at h
  subst h
  have hcm : ∀ (v : ι → K) J, conMat (P.con v) J = conMat (P.con 0) J := by
    intro v J
    have : ∀ i, (P.con v i).isSome = (P.con 0 i).isSome := by
      intro i; simp only [con]; split <;> rfl
    funext i j
    simp only [conMat, this]
  have key := nrLoop_inv (p := P.nr) (S := P.nrSys z up cp p load incr k)
    (fun it uc => ∀ i, P.isDir i = true → uc.1 i = up i + (if it = 0 then 0 else incr i))
    (fun it uc e uc' hI he hu => ?_) _ _ _ [] _ r' rfl (by intro i _; simp) hl
  · intro i hi
    have h1 := key.2 i hi
    have h2 := key.1
    rw [h1]
    congr 1
    by_cases hlen : r'.norms.length ≤ 1
    · rw [if_pos (by omega), if_pos hlen]
    · rw [if_neg (by omega), if_neg hlen]
  · intro i hi
    simp only [nrSys] at he hu
    by_cases hne : ∀ i, P.isDir i = false
    · rw [if_pos hne] at he
      cases he
    rw [if_neg hne] at he
    cases he
    cases hu
    simp only [Pi.add_apply, hI i hi]
    set a : PlasIn K ι κ := ⟨uc.1, up, uc.2, cp⟩
    set c := P.con (if it = 0 then incr else 0) with hc
    have hx := hsol (conMat c (P.tangent a p z load k)) 0
      (conRhs 1 c (P.tangent a p z load k) (-(P.residual a p z load k)))
      (by rw [hc, hcm]; exact hdet a)
    have hci : c i = some ((if it = 0 then incr else 0) i) := by simp [hc, con, hi]
    have hxi := congrFun hx i
    rw [con_row_some hci] at hxi
    rw [hxi]
    simp only [conRhs, hci, one_mul]
    rcases Nat.eq_zero_or_pos it with h0 | h0
    · simp [h0]
    · have : it ≠ 0 := by omega
      simp [this]

/-- **C34** (applied values, part): with an exact linear solver and invertible constrained tangent
matrices, a successful forward solve in which every Newton-Raphson solve made at least one update
ends with the prescribed values at the end of the grid in the constrained degrees of freedom.  What
is missing: solves that stop at their first evaluation skip their increment
(`C34_false`). -/
theorem C34_applied_partial (hsol : P.solve.Exact) (z : ζ → K)
    (hdet : ∀ a p load k, IsUnit (conMat (P.con 0) (P.tangent a p z load k)).det)
    (s s' : PlasState K ι κ π η) (hn : 0 < s.numSteps)
    (h : P.forward z s = Res.ok (s', true))
    (hup : ∀ l ∈ s'.log, 2 ≤ l.evals) (i : ι) (hi : P.isDir i = true) :
    s'.u (s.numSteps - 1) i = P.bc (s.stepSize * (s.numSteps : K)) i := by
  have key : ∀ (n k : Nat) (s s' : PlasState K ι κ π η),
      (prevOf s.u k i = (s.log.map StepLog.incr).sum i) →
      P.forwardLoop z n k s = Res.ok (s', true) → (∀ l ∈ s'.log, 2 ≤ l.evals) →
      prevOf s'.u (k + n) i = (s'.log.map StepLog.incr).sum i ∧ ∀ l ∈ s.log, 2 ≤ l.evals := by
    intro n
    induction n with
    | zero => intro k s s' hi h hl; cases h; exact ⟨hi, hl⟩
    | succ n ih =>
      intro k s s' hinv h hl
      rw [forwardLoop] at h
      rcases hs : P.forwardStep z k s with ⟨s1, b1⟩ | msg | _ <;> rw [hs] at h
      swap
      · cases h
      swap
      · cases h
      rw [Res.ok_bind] at h
      obtain ⟨r, hr⟩ := forwardStep_rel hs
      split_ifs at h with hb
      · cases h; cases hb
      have hnw := newton_applies hsol z _ _ _ _ _ k (fun a => hdet a _ _ k) r hr.newton i hi
      -- the log only grows
      have hgrow : ∀ (n k : Nat) (s s' : PlasState K ι κ π η) (b : Bool),
          P.forwardLoop z n k s = Res.ok (s', b) → ∀ l ∈ s.log, l ∈ s'.log := by
        intro n
        induction n with
        | zero => intro k s s' b h; cases h; exact fun l h => h
        | succ n ih =>
          intro k s s' b h
          rw [forwardLoop] at h
          rcases hs : P.forwardStep z k s with ⟨s1, b1⟩ | msg | _ <;> rw [hs] at h
          swap
          · cases h
          swap
          · cases h
          rw [Res.ok_bind] at h
          obtain ⟨r, hr⟩ := forwardStep_rel hs
          have h1 : ∀ l ∈ s.log, l ∈ s1.log := by
            intro l hl; rw [hr.log]; exact List.mem_append_left _ hl
          split_ifs at h
          · cases h; exact h1
          · exact fun l hl => ih _ _ _ _ h l (h1 l hl)
      have hev : 2 ≤ r.norms.length := by
        have hm : (⟨P.bc (s.stepSize * ((k + 1 : Nat) : K)) - (if k ≠ 0 then s.dirVals else 0),
            s.stepSize * ((k + 1 : Nat) : K), r.norms.length⟩ : StepLog K ι) ∈ s1.log := by
          rw [hr.log]; simp
        exact hl _ (hgrow _ _ _ _ _ h _ hm)
      have hinv1 : prevOf s1.u (k + 1) i = (s1.log.map StepLog.incr).sum i := by
        rw [hr.u, hr.log]
        simp only [prevOf, Nat.add_sub_cancel, List.map_append, List.sum_append, Pi.add_apply]
        rw [if_neg (by omega), Function.update_self, hnw, if_neg (by omega), ← hinv]
        simp [prevOf]
      have := ih (k + 1) s1 s' hinv1 h hl
      rw [Nat.add_assoc, Nat.add_comm 1 n] at this
      refine ⟨this.1, fun l hl' => this.2 l ?_⟩
      rw [hr.log]
      exact List.mem_append_left _ hl'
  have h1 := (key s.numSteps 0 (clear s) s' (by simp [prevOf, clear]) h hup).1
  rw [(C34_multipliers z s s' hn h).1, Nat.zero_add, prevOf, if_neg (by omega)] at h1
  exact h1

/-! ## C44 -/

/-- The internal force of step `k`, summed over the displacement degrees of freedom of a node:
residual of the global equation without loads. -/
def internalForce (P : PlasProblem F K ι κ π ν ζ η) (z : ζ → K) (s : PlasState K ι κ π η) (k : Nat)
    (n : η) : K := ((P.nodeDofs n).map (P.eq.r (s.at k) (s.p k) z 0 k)).sum

theorem forwardLoop_react {z : ζ → K} {R0 : Nat → η → K} :
    ∀ (m k : Nat) (s s' : PlasState K ι κ π η),
    (∀ j, j < k → ∀ n, s.react j n = R0 j n + P.internalForce z s j n) →
    (∀ j, k ≤ j → s.react j = R0 j) → P.forwardLoop z m k s = Res.ok (s', true) →
    ∀ j, j < k + m → ∀ n, s'.react j n = R0 j n + P.internalForce z s' j n := by
  intro m
  induction m with
  | zero => intro k s s' h1 _ h; cases h; exact h1
  | succ m ih =>
    intro k s s' h1 h2 h
    rw [forwardLoop] at h
    rcases hs : P.forwardStep z k s with ⟨s1, b1⟩ | msg | _ <;> rw [hs] at h
    swap
    · cases h
    swap
    · cases h
    rw [Res.ok_bind] at h
    obtain ⟨r, hr⟩ := forwardStep_rel hs
    split_ifs at h with hb
    · cases h; cases hb
    have h3 : ∀ j, j < k + 1 → ∀ n, s1.react j n = R0 j n + P.internalForce z s1 j n := by
      intro j hj n
      rw [hr.react]
      by_cases hjk : j = k
      · subst hjk
        rw [Function.update_self, h2 j le_rfl, internalForce, hr.p j le_rfl]
      · rw [Function.update_of_ne hjk, h1 j (by omega)]
        have : s1.at j = s.at j := by
          simp only [PlasState.at, hr.u, hr.c, prevOf]
          rw [Function.update_of_ne hjk, Function.update_of_ne hjk,
            Function.update_of_ne (by omega), Function.update_of_ne (by omega)]
        rw [internalForce, internalForce, this, hr.p j (by omega)]
    have h4 : ∀ j, k + 1 ≤ j → s1.react j = R0 j := by
      intro j hj
      rw [hr.react, Function.update_of_ne (by omega), h2 j (by omega)]
    have := ih (k + 1) s1 s' h3 h4 h
    rwa [Nat.add_assoc, Nat.add_comm 1 m] at this

/-- **C44** (what the code does): a successful forward solve *adds* the internal forces of its steps
to the contents of the reaction force array. -/
theorem C44_reaction (z : ζ → K) (s s' : PlasState K ι κ π η)
    (h : P.forward z s = Res.ok (s', true)) (k : Nat) (hk : k < s.numSteps) (n : η) :
    s'.react k n = s.react k n + P.internalForce z s' k n := by
  have := forwardLoop_react (P := P) (z := z) (R0 := s.react) s.numSteps 0 (clear s) s'
    (by intro j hj; omega) (fun _ _ => rfl) h
  exact this k (by omega) n

/-- **C44** (part): after the first forward solve of a new problem the reaction force is the
internal force.  Missing: later solves and retries, see `C44_false`. -/
theorem C44_first_partial (z : ζ → K) (n0 : Nat) (s' : PlasState K ι κ π η)
    (h : P.forward z (P.create n0) = Res.ok (s', true)) (k : Nat)
    (hk : k < (P.create n0 : PlasState K ι κ π η).numSteps) (n : η) :
    s'.react k n = P.internalForce z s' k n := by
  have := C44_reaction z _ s' h k hk n
  simpa [create] using this

end PlasProblem

end

end Plato
