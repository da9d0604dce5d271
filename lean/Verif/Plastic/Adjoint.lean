import Verif.Plastic.Forward

/-!
# The backward sweep of the plasticity problem (C35)
-/

namespace Plato

open Matrix Finset

section
variable {F K ι κ π ν ζ η : Type} [Flt F] [Field K] [Fintype ι] [DecidableEq ι] [Fintype κ]
  [DecidableEq κ] [Fintype π] [Fintype ν] [Fintype ζ]

/-- Specification: `(du,dc,dp)` is a solution of the linearised forward equations along the history
of `s`, in the design direction `dz`: fixed prescribed values, linearised global equation at the
free degrees of freedom (with the load multiplier `load k` of the forward solve), linearised local
equation, linearised row-summed projection; `dPz k` is the derivative of the row-summed projection
equation with respect to the design. -/
structure PlasTangent (P : PlasProblem F K ι κ π ν ζ η) (z dz : ζ → K) (s : PlasState K ι κ π η)
    (load : Nat → K) (dPz : Nat → π → K) (du : Nat → ι → K) (dc : Nat → κ → K) (dp : Nat → π → K) :
    Prop where
  fixed : ∀ k, k < s.numSteps → ∀ i, P.isDir i = true → du k i = 0
  glob : ∀ k, k < s.numSteps → ∀ i, P.isDir i = false →
    (P.eq.rU (s.at k) (s.p k) z (load k) k *ᵥ du k +
      P.eq.rUp (s.at k) (s.p k) z (load k) k *ᵥ prevOf du k +
      P.eq.rC (s.at k) (s.p k) z (load k) k *ᵥ dc k +
      P.eq.rCp (s.at k) (s.p k) z (load k) k *ᵥ prevOf dc k +
      P.eq.rP (s.at k) (s.p k) z (load k) k *ᵥ dp k +
      P.eq.rZ (s.at k) (s.p k) z (load k) k *ᵥ dz) i = 0
  loc : ∀ k, k < s.numSteps →
    P.eq.hU (s.at k) z k *ᵥ du k + P.eq.hUp (s.at k) z k *ᵥ prevOf du k +
      P.eq.hC (s.at k) z k *ᵥ dc k + P.eq.hCp (s.at k) z k *ᵥ prevOf dc k +
      P.eq.hZ (s.at k) z k *ᵥ dz = 0
  proj0 : dp 0 = 0
  proj : ∀ k, 1 ≤ k → k < s.numSteps → ∀ i,
    (∑ j, P.eq.projP (s.p k) (P.pressure (prevOf s.u k)) z k i j) * dp k i +
      (P.eq.projN (s.p k) (P.pressure (prevOf s.u k)) z k *ᵥ P.pressure (prevOf du k)) i +
      dPz k i = 0

/-- The derivative of the summed criterion along `(du,dc,dz)`. -/
def PlasCriterion.along (C : PlasCriterion K ι κ ζ) (z dz : ζ → K) (s : PlasState K ι κ π η)
    (du : Nat → ι → K) (dc : Nat → κ → K) : K :=
  ∑ k ∈ range s.numSteps, (C.fU (s.at k) z k ⬝ᵥ du k + C.fUp (s.at k) z k ⬝ᵥ prevOf du k +
    C.fC (s.at k) z k ⬝ᵥ dc k + C.fCp (s.at k) z k ⬝ᵥ prevOf dc k + C.fZ (s.at k) z k ⬝ᵥ dz)

namespace PlasProblem
variable (P : PlasProblem F K ι κ π ν ζ η)

/-- Conditions of the backward sweep: solvable systems, symmetric row sums. -/
structure AdjointReady (z : ζ → K) (s : PlasState K ι κ π η) : Prop where
  solver : P.solve.Exact
  inv : ∀ k, k < s.numSteps → P.inv (P.eq.hC (s.at k) z k) * P.eq.hC (s.at k) z k = 1
  det : ∀ k, k < s.numSteps →
    IsUnit (conMat (P.con 0) (P.tangent (s.at k) (s.p k) z s.load k)ᵀ).det
  rows : ∀ k, 1 ≤ k → k < s.numSteps → ∀ i,
    ∑ j, P.eq.projP (s.p k) (P.pressure (prevOf s.u k)) z k i j ≠ 0 ∧
    ∑ j, P.eq.projP (s.p k) (P.pressure (prevOf s.u k)) z k j i =
      ∑ j, P.eq.projP (s.p k) (P.pressure (prevOf s.u k)) z k i j

/-- The derivatives of the global residual do not depend on the load multiplier (the loads depend
neither on the states nor on the design). -/
structure LoadFree (z : ζ → K) (s : PlasState K ι κ π η) (load : Nat → K) : Prop where
  rU : ∀ k, P.eq.rU (s.at k) (s.p k) z s.load k = P.eq.rU (s.at k) (s.p k) z (load k) k
  rUp : ∀ k, P.eq.rUp (s.at k) (s.p k) z s.load k = P.eq.rUp (s.at k) (s.p k) z (load k) k
  rC : ∀ k, P.eq.rC (s.at k) (s.p k) z s.load k = P.eq.rC (s.at k) (s.p k) z (load k) k
  rCp : ∀ k, P.eq.rCp (s.at k) (s.p k) z s.load k = P.eq.rCp (s.at k) (s.p k) z (load k) k
  rP : ∀ k, P.eq.rP (s.at k) (s.p k) z s.load k = P.eq.rP (s.at k) (s.p k) z (load k) k
  rZ : ∀ k, P.eq.rZ (s.at k) (s.p k) z s.load k = P.eq.rZ (s.at k) (s.p k) z (load k) k

variable {P}

/-- What one backward step achieves. -/
theorem adjoint_step {C : PlasCriterion K ι κ ζ} {z dz : ζ → K} {s : PlasState K ι κ π η}
    {load : Nat → K} {dPz : Nat → π → K} {du : Nat → ι → K} {dc : Nat → κ → K} {dp : Nat → π → K}
    (ht : PlasTangent P z dz s load dPz du dc dp) (hr : P.AdjointReady z s)
    (hl : P.LoadFree z s load)
    (hz : ∀ k, 1 ≤ k → k < s.numSteps →
      P.eq.projZ (s.p k) (P.pressure (s.u k)) z k *ᵥ dz = dPz k)
    {k : Nat} (hk : k < s.numSteps) (A A' : Adj K ι κ π) (hA : A' = P.adjointStep C z s k A) :
    C.fU (s.at k) z k ⬝ᵥ du k + C.fUp (s.at k) z k ⬝ᵥ prevOf du k +
      C.fC (s.at k) z k ⬝ᵥ dc k + C.fCp (s.at k) z k ⬝ᵥ prevOf dc k +
      (P.nextGlobal C z s k A ⬝ᵥ du k + P.nextLocal C z s k A ⬝ᵥ dc k) =
    P.pdeGrad z s k A' ⬝ᵥ dz + (P.nextGlobal C z s (k - 1) A' ⬝ᵥ prevOf du k +
      P.nextLocal C z s (k - 1) A' ⬝ᵥ prevOf dc k) := by
  have e1 := hl.rU k
  have e2 := hl.rUp k
  have e3 := hl.rC k
  have e4 := hl.rCp k
  have e5 := hl.rP k
  have e6 := hl.rZ k
  have tg := ht.glob k hk
  have tl := ht.loc k hk
  have tf := ht.fixed k hk
  rw [← e1, ← e2, ← e3, ← e4, ← e5, ← e6] at tg
  have hinv := hr.inv k hk
  have hdet := hr.det k hk
  -- abbreviations
  obtain ⟨lam, mu, gam⟩ := A'
  simp only [adjointStep, Adj.mk.injEq] at hA
  obtain ⟨hlam, hmu, hgam⟩ := hA
  rw [← hlam] at hmu hgam
  have hT : P.tangent (s.at k) (s.p k) z s.load k = P.eq.rU (s.at k) (s.p k) z s.load k -
    P.eq.rC (s.at k) (s.p k) z s.load k *
      (P.inv (P.eq.hC (s.at k) z k) * P.eq.hU (s.at k) z k) := rfl
  generalize hTd : P.tangent (s.at k) (s.p k) z s.load k = T at *
  generalize hrU : P.eq.rU (s.at k) (s.p k) z s.load k = rU at *
  generalize hrC : P.eq.rC (s.at k) (s.p k) z s.load k = rC at *
  generalize hrP : P.eq.rP (s.at k) (s.p k) z s.load k = rP at *
  generalize hrZ : P.eq.rZ (s.at k) (s.p k) z s.load k = rZ at *
  generalize hrUp : P.eq.rUp (s.at k) (s.p k) z s.load k = rUp at *
  generalize hrCp : P.eq.rCp (s.at k) (s.p k) z s.load k = rCp at *
  generalize hhU : P.eq.hU (s.at k) z k = hU at *
  generalize hhC : P.eq.hC (s.at k) z k = hC at *
  generalize hhUp : P.eq.hUp (s.at k) z k = hUp at *
  generalize hhCp : P.eq.hCp (s.at k) z k = hCp at *
  generalize hhZ : P.eq.hZ (s.at k) z k = hZ at *
  generalize P.inv hC = inv at *
  generalize hng : P.nextGlobal C z s k A = ng at *
  generalize hnl : P.nextLocal C z s k A = nl at *
  generalize hfU : C.fU (s.at k) z k = fU at *
  generalize hfC : C.fC (s.at k) z k = fC at *
  generalize hfUp : C.fUp (s.at k) z k = fUp at *
  generalize hfCp : C.fCp (s.at k) z k = fCp at *
  -- the global adjoint equation
  have hsol := hr.solver _ 0 (conRhs 1 (P.con 0) Tᵀ
    (-(fU + ng - hUᵀ *ᵥ invᵀ *ᵥ (fC + nl)))) hdet
  rw [← hlam] at hsol
  have hadj := (conSys_zero (s := (1 : K)) (c := P.con 0) (J := Tᵀ) (by
    intro i v hi
    simp only [con] at hi
    split at hi
    · cases hi; simp
    · cases hi)).1 hsol
  have hlam0 : ∀ i, P.isDir i = true → lam i = 0 := fun i hi =>
    hadj.1 i 0 (by simp [con, hi])
  have hlam1 : ∀ i, P.isDir i = false →
      (Tᵀ *ᵥ lam) i = (-(fU + ng - hUᵀ *ᵥ invᵀ *ᵥ (fC + nl))) i := fun i hi =>
    hadj.2 i (by simp [con, hi])
  -- tested with the tangent
  have d1 : (Tᵀ *ᵥ lam) ⬝ᵥ du k = (-(fU + ng - hUᵀ *ᵥ invᵀ *ᵥ (fC + nl))) ⬝ᵥ du k := by
    refine sum_congr rfl fun i _ => ?_
    cases hi : P.isDir i
    · rw [hlam1 i hi]
    · rw [tf i hi, mul_zero, mul_zero]
  have d2 : lam ⬝ᵥ (rU *ᵥ du k + rUp *ᵥ prevOf du k + rC *ᵥ dc k + rCp *ᵥ prevOf dc k +
      rP *ᵥ dp k + rZ *ᵥ dz) = 0 := by
    refine sum_eq_zero fun i _ => ?_
    cases hi : P.isDir i
    · rw [tg i hi, mul_zero]
    · rw [hlam0 i hi, zero_mul]
  have d3 : mu ⬝ᵥ (hU *ᵥ du k + hUp *ᵥ prevOf du k + hC *ᵥ dc k + hCp *ᵥ prevOf dc k +
      hZ *ᵥ dz) = 0 := by rw [tl, dotProduct_zero]
  -- transposes
  have tr : ∀ {α β : Type} [Fintype α] [Fintype β] (M : Matrix α β K) (x : α → K) (y : β → K),
      (Mᵀ *ᵥ x) ⬝ᵥ y = x ⬝ᵥ (M *ᵥ y) := by
    intro α β _ _ M x y
    rw [dot_transpose, transpose_transpose]
  have m1 : mu ⬝ᵥ (hC *ᵥ dc k) = -((fC + rCᵀ *ᵥ lam + nl) ⬝ᵥ dc k) := by
    rw [hmu, neg_dotProduct, tr, mulVec_mulVec, hinv, one_mulVec]
  have m2 : mu ⬝ᵥ (hU *ᵥ du k) = -((fC + rCᵀ *ᵥ lam + nl) ⬝ᵥ (inv *ᵥ (hU *ᵥ du k))) := by
    rw [hmu, neg_dotProduct, tr]
  have c1 : (Tᵀ *ᵥ lam) ⬝ᵥ du k = lam ⬝ᵥ (rU *ᵥ du k) -
      (rCᵀ *ᵥ lam) ⬝ᵥ (inv *ᵥ (hU *ᵥ du k)) := by
    rw [tr, hT, sub_mulVec, dotProduct_sub, tr]
    simp only [mulVec_mulVec]
  have c2 : (hUᵀ *ᵥ invᵀ *ᵥ (fC + nl)) ⬝ᵥ du k =
      (fC + nl) ⬝ᵥ (inv *ᵥ (hU *ᵥ du k)) := by
    rw [tr, tr]
  have c3 : (rCᵀ *ᵥ lam) ⬝ᵥ dc k = lam ⬝ᵥ (rC *ᵥ dc k) := tr _ _ _
  -- the projection
  have key : lam ⬝ᵥ (rP *ᵥ dp k) =
      gam ⬝ᵥ (P.eq.projZ (s.p k) (P.pressure (s.u k)) z k *ᵥ dz) +
      (if k = 0 then 0 else
        gam ⬝ᵥ (P.eq.projN (s.p k) (P.pressure (prevOf s.u k)) z k *ᵥ
          P.pressure (prevOf du k))) := by
    rcases Nat.eq_zero_or_pos k with h0 | h0
    · subst h0
      rw [ht.proj0, hgam]
      simp
    · have h0' : k ≠ 0 := by omega
      rw [if_neg h0', ← dotProduct_add, hz k h0 hk, ← tr]
      rw [if_neg h0'] at hgam
      refine sum_congr rfl fun i _ => ?_
      have hp := ht.proj k h0 hk i
      obtain ⟨hn0, hsym⟩ := hr.rows k h0 hk i
      rw [hgam]
      simp only [rowSummed, transpose_apply, Pi.neg_apply, Pi.add_apply]
      rw [hsym]
      field_simp
      linear_combination (rPᵀ *ᵥ lam) i * hp
  -- the terms handed to the previous step
  have hback : P.nextGlobal C z s (k - 1) ⟨lam, mu, gam⟩ ⬝ᵥ prevOf du k +
      P.nextLocal C z s (k - 1) ⟨lam, mu, gam⟩ ⬝ᵥ prevOf dc k =
      fUp ⬝ᵥ prevOf du k + fCp ⬝ᵥ prevOf dc k + lam ⬝ᵥ (rUp *ᵥ prevOf du k) +
      lam ⬝ᵥ (rCp *ᵥ prevOf dc k) + mu ⬝ᵥ (hUp *ᵥ prevOf du k) + mu ⬝ᵥ (hCp *ᵥ prevOf dc k) +
      (if k = 0 then 0 else
        gam ⬝ᵥ (P.eq.projN (s.p k) (P.pressure (prevOf s.u k)) z k *ᵥ
          P.pressure (prevOf du k))) := by
    rcases Nat.eq_zero_or_pos k with h0 | h0
    · subst h0
      simp [prevOf]
    · have h0' : k ≠ 0 := by omega
      have hkk : k - 1 + 1 = k := by omega
      have hne : k - 1 ≠ s.numSteps - 1 := by omega
      have hpj : P.nextProj z s (k - 1) ⟨lam, mu, gam⟩ ⬝ᵥ prevOf du k =
          gam ⬝ᵥ (P.eq.projN (s.p k) (P.pressure (prevOf s.u k)) z k *ᵥ
            P.pressure (prevOf du k)) := by
        rw [← tr]
        simp only [nextProj, dotProduct, hkk]
        have hpu : s.u (k - 1) = prevOf s.u k := by simp [prevOf, h0']
        rw [hpu]
        simp only [sum_mul]
        rw [sum_comm]
        refine sum_congr rfl fun n _ => ?_
        simp [pressure, ite_mul]
      simp only [nextGlobal, nextLocal, hne, ne_eq, not_false_eq_true, if_true, hkk, hrUp, hrCp,
        hhUp, hhCp, hfUp, hfCp, add_dotProduct, tr, hpj, h0', if_false]
      ring
  rw [hback]
  simp only [pdeGrad, add_dotProduct, tr, hrZ, hhZ]
  simp only [dotProduct_add, add_dotProduct, neg_dotProduct, sub_dotProduct] at d1 d2 d3 m1 m2 c1 c2 c3
  linear_combination d1 - d2 - d3 - c1 + c2 - c3 + key + m1 + m2

/-- **C35** (part): in exact arithmetic and for solvable systems, the gradient returned by
`criterionGradient` is the derivative of the summed criterion along every solution of the linearised
coupled equations - provided that the loads depend neither on the states nor on the design (the load
multiplier is 0 during the backward sweep), and that the derivative of the projection residual with
respect to the design, which is evaluated with the current instead of the previous pressure and with
the consistent instead of the row-summed matrix, is the correct one.  The `C35_false_*` theorems
show that these two hypotheses cannot be dropped. -/
theorem C35_partial (C : PlasCriterion K ι κ ζ) (z dz : ζ → K) (s : PlasState K ι κ π η)
    (load : Nat → K) (dPz : Nat → π → K) (du : Nat → ι → K) (dc : Nat → κ → K) (dp : Nat → π → K)
    (hstop : s.stopOpt = false) (hdir : ∃ i, P.isDir i = true)
    (ht : PlasTangent P z dz s load dPz du dc dp) (hr : P.AdjointReady z s)
    (hl : P.LoadFree z s load)
    (hz : ∀ k, 1 ≤ k → k < s.numSteps →
      P.eq.projZ (s.p k) (P.pressure (s.u k)) z k *ᵥ dz = dPz k) :
    ∃ g, P.criterionGradient C z s = Res.ok g ∧ g ⬝ᵥ dz = C.along z dz s du dc := by
  have hne : ¬ (s.numSteps ≠ 0 ∧ ∀ i, P.isDir i = false) := by
    rintro ⟨-, h⟩
    obtain ⟨i, hi⟩ := hdir
    rw [h i] at hi
    cases hi
  simp only [criterionGradient, hstop, Bool.false_eq_true, if_false, hne]
  refine ⟨_, rfl, ?_⟩
  set N := s.numSteps with hN
  have inv := loopDown_inv (body := fun j st => P.backwardStep C z s (j - 1) st)
    (P := fun j (st : Adj K ι κ π × (ζ → K)) => j ≤ N →
      st.2 ⬝ᵥ dz + (P.nextGlobal C z s (j - 1) st.1 ⬝ᵥ prevOf du j +
        P.nextLocal C z s (j - 1) st.1 ⬝ᵥ prevOf dc j) =
      ∑ k ∈ range (N - j), (C.fU (s.at (j + k)) z (j + k) ⬝ᵥ du (j + k) +
        C.fUp (s.at (j + k)) z (j + k) ⬝ᵥ prevOf du (j + k) +
        C.fC (s.at (j + k)) z (j + k) ⬝ᵥ dc (j + k) +
        C.fCp (s.at (j + k)) z (j + k) ⬝ᵥ prevOf dc (j + k)))
    N (⟨0, 0, 0⟩, 0) ?_ ?_
  · have h0 := inv (Nat.zero_le _)
    simp only [Nat.sub_zero, zero_add] at h0
    have e : prevOf du 0 = 0 := by simp [prevOf]
    have e' : prevOf dc 0 = 0 := by simp [prevOf]
    simp only [add_dotProduct, PlasCriterion.along]
    rw [e, e', dotProduct_zero, dotProduct_zero, add_zero, add_zero] at h0
    rw [h0, sum_add_distrib (g := fun k => C.fZ (s.at k) z k ⬝ᵥ dz)]
    congr 1
    simp only [dotProduct, sum_mul, Finset.sum_apply]
    rw [sum_comm]
  · intro _
    have hlast : ∀ A, P.nextGlobal C z s (N - 1) A = 0 ∧ P.nextLocal C z s (N - 1) A = 0 := by
      intro A
      simp [nextGlobal, nextLocal, hN]
    rw [(hlast _).1, (hlast _).2]
    simp
  · intro j st h1 h2 ih hj
    have hih := ih h2
    obtain ⟨k, rfl⟩ : ∃ k, j = k + 1 := ⟨j - 1, by omega⟩
    simp only [Nat.add_sub_cancel] at hih ⊢
    have hk : k < N := by omega
    have hstep := adjoint_step (C := C) ht hr hl hz hk st.1 _ rfl
    have eu : prevOf du (k + 1) = du k := by simp [prevOf]
    have ec : prevOf dc (k + 1) = dc k := by simp [prevOf]
    rw [eu, ec] at hih
    have hsum : N - k = (N - (k + 1)) + 1 := by omega
    rw [hsum, sum_range_succ']
    simp only [add_zero]
    have hcongr : ∀ t, k + 1 + t = k + (t + 1) := fun t => by omega
    simp only [hcongr] at hih
    rw [← hih]
    simp only [backwardStep, add_dotProduct]
    linear_combination -hstep

end PlasProblem

end

end Plato
