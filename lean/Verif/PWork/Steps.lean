import Verif.PWork.Work
import Verif.Crit.Elastic

/-!
# The criteria over the steps of a problem
-/

namespace Plato.PWork
open Finset Plato Plato.Mech Plato.J2 Plato.Plast

/-- States of all steps. -/
structure Steps (M : FeModel) (nl steps : Nat) (us cs : List (List ℝ)) (z x : List ℝ) : Prop where
  lu : steps ≤ us.length
  lc : steps ≤ cs.length
  u : ∀ k, k < steps → (us.getD k []).length = M.nn * M.ndof
  c : ∀ k, k < steps → (cs.getD k []).length = M.nc * nl
  z : z.length = M.nn
  x : x.length = M.nn * M.dim

/-- Arguments after `k` steps; before the first step all unknowns are zero. -/
noncomputable def after (M : FeModel) (nl : Nat) (us cs : List (List ℝ)) (z x : List ℝ) : Nat → Args ℝ
  | 0 => ⟨List.replicate (M.nn * M.ndof) 0, List.replicate (M.nn * M.ndof) 0, List.replicate (M.nc * nl) 0,
      List.replicate (M.nc * nl) 0, z, x⟩
  | k + 1 => ⟨us.getD k [], if k = 0 then List.replicate (M.nn * M.ndof) 0 else us.getD (k - 1) [], cs.getD k [],
      if k = 0 then List.replicate (M.nc * nl) 0 else cs.getD (k - 1) [], z, x⟩

section Steps
variable {M : FeModel} {nl steps : Nat} {us cs : List (List ℝ)} {z x : List ℝ} (h : Steps M nl steps us cs z x)
include h

theorem after_ok {k : Nat} (hk : k ≤ steps) : (after M nl us cs z x k).Ok M nl := by
  cases k with
  | zero => exact ⟨List.length_replicate, List.length_replicate, List.length_replicate, List.length_replicate, h.z, h.x⟩
  | succ k =>
    refine ⟨h.u k hk, ?_, h.c k hk, ?_, h.z, h.x⟩
    · show (if k = 0 then _ else _ : List ℝ).length = _
      split
      · exact List.length_replicate
      · exact h.u (k - 1) (by omega)
    · show (if k = 0 then _ else _ : List ℝ).length = _
      split
      · exact List.length_replicate
      · exact h.c (k - 1) (by omega)

theorem stepArgs_ok {k : Nat} (hk : k < steps) : stepArgs M nl us cs z x k = .ok (after M nl us cs z x (k + 1)) := by
  have hr : ∀ (l : List (List ℝ)) (j : Nat), j < l.length → rd l j = .ok (l.getD j []) := by
    intro l j hj
    simp [rd, hj]
  have h1 := h.lu
  have h2 := h.lc
  unfold stepArgs previousState
  rw [hr us k (by omega), Res.ok_bind, hr cs k (by omega), Res.ok_bind]
  by_cases h0 : k = 0
  · subst h0
    rfl
  · rw [if_neg h0, if_neg h0, hr cs _ (by omega), Res.ok_bind, hr us _ (by omega), Res.ok_bind]
    simp only [after, if_neg h0, Res.pure_eq]

omit h in
/-- The previous states of a step are the states after the step before. -/
theorem old_after (k : Nat) : (old (after M nl us cs z x (k + 1))).u = (after M nl us cs z x k).u ∧
    (old (after M nl us cs z x (k + 1))).c = (after M nl us cs z x k).c := by
  cases k with
  | zero => exact ⟨rfl, rfl⟩
  | succ k => exact ⟨by simp [old, after], by simp [old, after]⟩

/-- The criterion is the sum over the steps. -/
theorem evaluateCriterion_ok {val : Nat → Args ℝ → Res ℝ} {f : Nat → ℝ}
    (hv : ∀ k, k < steps → val k (after M nl us cs z x (k + 1)) = .ok (f k)) :
    evaluateCriterion M nl steps val us cs z x = .ok (∑ k ∈ range steps, f k) := by
  unfold evaluateCriterion
  exact forRange_eq (fun k => ∑ k ∈ range k, f k) fun k hk => by
    rw [stepArgs_ok h hk, Res.ok_bind, hv k hk, Res.ok_bind, Res.pure_eq, sum_range_succ]

end Steps

/-! ## Values -/

/-- Orders of the loops and of the sums of an evaluation. -/
structure Run where
  ord : Nat → List Nat
  sch : Nat → Nat → List Nat
  chunks : Nat → List (List Nat)

structure Run.Ok (M : FeModel) (r : Run) : Prop where
  ord : OrdOk M r.ord
  sch : LSched M r.sch
  chunks : ChunkOk M r.chunks

/-- Value of the criteria `P` of the domains. -/
noncomputable def workValue (M : FeModel) (P : Nat → WorkCrit ℝ) (mult : ℝ) (r : Run) (A : Args ℝ) : Res ℝ :=
  basicValue M (localDofs M.dim) (workEv M P (fun a => |a|) r.ord) mult r.sch r.chunks A

/-- Value over the steps of a problem. -/
noncomputable def problemValue (M : FeModel) (P : Nat → WorkCrit ℝ) (mult : ℝ) (r : Nat → Run) (steps : Nat)
    (us cs : List (List ℝ)) (z x : List ℝ) : Res ℝ :=
  evaluateCriterion M (localDofs M.dim) steps (fun k => workValue M P mult (r k)) us cs z x

theorem cellSum_congr {M : FeModel} {f g : Nat → Nat → ℝ}
    (h : ∀ k, k < M.domains.length → ∀ cell ∈ dom M k, f k cell = g k cell) : cellSum M f = cellSum M g :=
  sum_congr rfl fun k hk => sum_congr rfl fun _ hc => h k (mem_range.1 hk) _ (atN_mem (mem_range.1 hc))

theorem cellSum_sub (M : FeModel) (f g : Nat → Nat → ℝ) :
    (cellSum M fun k c => f k c - g k c) = cellSum M f - cellSum M g := by
  unfold cellSum
  simp only [sum_sub_distrib]

theorem cellSum_add (M : FeModel) (f g : Nat → Nat → ℝ) :
    (cellSum M fun k c => f k c + g k c) = cellSum M f + cellSum M g := by
  unfold cellSum
  simp only [sum_add_distrib]

theorem cellSum_nonneg {M : FeModel} {f : Nat → Nat → ℝ}
    (h : ∀ k, k < M.domains.length → ∀ cell ∈ dom M k, 0 ≤ f k cell) : 0 ≤ cellSum M f :=
  sum_nonneg fun k hk => sum_nonneg fun _ hc => h k (mem_range.1 hk) _ (atN_mem (mem_range.1 hc))

theorem cellSum_pos {M : FeModel} {f : Nat → Nat → ℝ}
    (h : ∀ k, k < M.domains.length → ∀ cell ∈ dom M k, 0 ≤ f k cell)
    {k cell : Nat} (hk : k < M.domains.length) (hc : cell ∈ dom M k) (hp : 0 < f k cell) : 0 < cellSum M f := by
  obtain ⟨b, hb, rfl⟩ := mem_atN hc
  refine sum_pos' (fun k hk => sum_nonneg fun _ hc => h k (mem_range.1 hk) _ (atN_mem (mem_range.1 hc)))
    ⟨k, mem_range.2 hk, sum_pos' (fun c hc => h k hk _ (atN_mem (mem_range.1 hc))) ⟨b, mem_range.2 hb, hp⟩⟩

/-- The energy needs the current states. -/
theorem energy_congr {M : FeModel} {P : Nat → WorkCrit ℝ} : ∀ {A B : Args ℝ}, A.u = B.u → A.c = B.c → A.z = B.z →
    A.x = B.x → energy M P A = energy M P B := by
  rintro ⟨u, up, c, cp, z, x⟩ ⟨u', up', c', cp', z', x'⟩ h1 h2 h3 h4
  dsimp only at h1 h2 h3 h4
  subst h1 h2 h3 h4
  rfl

section Value
variable {M : FeModel} (hM : M.Ok) {P : Nat → WorkCrit ℝ} (hJ : WOk M P) {A : Args ℝ} (hA : A.Ok M (localDofs M.dim))
  {r : Run} (hr : r.Ok M)
include hM hJ

include hA hr in
theorem workValue_ok (mult : ℝ) : workValue M P mult r A =
    .ok (mult * cellSum M fun k cell => (P k).work (fun a => |a|) (numbers M A cell)) :=
  basicValue_ok hM hr.sch (workEv_cellWise hJ hr.ord _) hA hr.chunks mult

include hA hr in
/-- **C76, one step**: in two dimensions the elastic work criterion of a step is the change of the elastic energy
of the body, for every mesh, every state and every order of the loops. -/
theorem C76_step (h2 : M.dim = 2) (hp : ∀ k, k < M.domains.length → (P k).plastic = false) (mult : ℝ) :
    workValue M P mult r A = .ok (mult * (energy M P A - energy M P (old A))) := by
  rw [workValue_ok hM hJ hA hr, energy, energy, ← cellSum_sub]
  congr 2
  refine cellSum_congr fun k hk cell _ => ?_
  rw [elastic_cell hJ hk cell (hp k hk) h2]
  unfold meanStress stress
  have e : penalty M P (old A) k cell = penalty M P A k cell := rfl
  have e' : volume M P (old A) k cell = volume M P A k cell := rfl
  rw [e, e', mean_work, mul_sub]

variable {steps : Nat} {us cs : List (List ℝ)} {z x : List ℝ} (h : Steps M (localDofs M.dim) steps us cs z x)
  {rs : Nat → Run} (hrs : ∀ k, k < steps → (rs k).Ok M)
include h hrs

/-- **C76, histories**: in two dimensions the elastic work criterion of a history is the elastic energy at its end
minus that of the state with all unknowns zero. -/
theorem C76_history (h2 : M.dim = 2) (hp : ∀ k, k < M.domains.length → (P k).plastic = false) (mult : ℝ) :
    problemValue M P mult rs steps us cs z x = .ok (mult * (energy M P (after M (localDofs M.dim) us cs z x steps) -
      energy M P (after M (localDofs M.dim) us cs z x 0))) := by
  unfold problemValue
  rw [evaluateCriterion_ok h (f := fun k => mult * (energy M P (after M (localDofs M.dim) us cs z x (k + 1)) -
    energy M P (after M (localDofs M.dim) us cs z x k)))]
  · rw [← mul_sum, sum_range_sub fun k => energy M P (after M (localDofs M.dim) us cs z x k)]
  · intro k hk
    rw [C76_step hM hJ (after_ok h hk) (hrs k hk) h2 hp]
    congr 3
    obtain ⟨e1, e2⟩ := old_after (M := M) (nl := localDofs M.dim) (us := us) (cs := cs) (z := z) (x := x) k
    have ez : (after M (localDofs M.dim) us cs z x k).z = z := by cases k <;> rfl
    have ex : (after M (localDofs M.dim) us cs z x k).x = x := by cases k <;> rfl
    exact energy_congr e1 e2 ez.symm ex.symm

end Value

/-! ## The state at the beginning -/

section Start
variable {M : FeModel} {P : Nat → WorkCrit ℝ} (hJ : WOk M P) {us cs : List (List ℝ)} {z x : List ℝ} {k : Nat}
  (hk : k < M.domains.length) (cell : Nat)
include hJ hk

omit hk in
theorem state_start : stateOf M (after M (localDofs M.dim) us cs z x 0).c cell = ⟨0, 0, 0, 0⟩ := by
  have hc : (fun i => at0 (after M (localDofs M.dim) us cs z x 0).c (cell * localDofs M.dim + i)) = fun _ => 0 := by
    funext i
    exact Crit.at0_replicate _ _
  unfold stateOf
  rw [hc]
  unfold point strainTensor stressTensor
  rcases hJ.dim with h | h <;> rw [h] <;> simp only [Point.mk.injEq, true_and, if_true] <;> constructor <;>
    ext i j <;> fin_cases i <;> fin_cases j <;> simp

/-- Elastic strain when all unknowns are zero: that of the thermal strain of temperature zero. -/
theorem elastic_start : elasticTensor M P (after M (localDofs M.dim) us cs z x 0) k cell =
    (if (P k).mat.thermal then (P k).mat.alpha * (P k).mat.tref else 0) • (1 : Tensor) := by
  have e : (P k).mat.d = M.dim := hJ.d k hk
  have hu : ∀ l, (numbers M (after M (localDofs M.dim) us cs z x 0) cell).u l = 0 := fun l => Crit.at0_replicate _ _
  have hs := state_start hJ (us := us) (cs := cs) (z := z) (x := x) cell
  unfold elasticTensor strainOf J2.mechStrain
  rw [hs]
  have h0 : smallStrain (P k).mat.d (P k).mat.ndof (numbers M (after M (localDofs M.dim) us cs z x 0) cell).u
      (numbers M (after M (localDofs M.dim) us cs z x 0) cell).x = 0 := by
    ext i j
    unfold smallStrain fieldGrad
    simp [hu]
  rw [h0]
  have ht : (P k).mat.therm (numbers M (after M (localDofs M.dim) us cs z x 0) cell).u =
      -(if (P k).mat.thermal then (P k).mat.alpha * (P k).mat.tref else 0) := by
    unfold J2.therm J2.temp
    simp only [hu]
    split <;> simp
  rw [ht]
  simp

omit hk in
/-- Without thermal strains the state at the beginning stores no energy. -/
theorem energy_start (ht : ∀ k, k < M.domains.length → (P k).mat.thermal = false) :
    energy M P (after M (localDofs M.dim) us cs z x 0) = 0 := by
  unfold energy cellSum
  refine sum_eq_zero fun k hk => sum_eq_zero fun c _ => ?_
  dsimp only
  rw [elastic_start hJ (mem_range.1 hk), ht k (mem_range.1 hk), if_neg (by simp), zero_smul, density_eq]
  simp [deviator, nrm]

end Start

/-! ## C76 -/

/-- Signs of the parameters. -/
structure Signs (M : FeModel) (P : Nat → WorkCrit ℝ) (A : Args ℝ) (k cell : Nat) : Prop where
  vol : 0 < volume M P A k cell
  pen : 0 < penalty M P A k cell
  bulk : 0 < (P k).bulk
  shear : 0 < (P k).mat.shear

theorem energy_nonneg {M : FeModel} {P : Nat → WorkCrit ℝ} {A : Args ℝ} (hS : EachCell M (Signs M P A)) :
    0 ≤ energy M P A :=
  cellSum_nonneg fun k hk cell hc =>
    mul_nonneg (hS k hk cell hc).vol.le (density_nonneg (mul_nonneg (hS k hk cell hc).pen.le (hS k hk cell hc).bulk.le)
      (mul_nonneg (hS k hk cell hc).pen.le (hS k hk cell hc).shear.le) _)

theorem energy_zero {M : FeModel} {P : Nat → WorkCrit ℝ} {A : Args ℝ} (hS : EachCell M (Signs M P A)) :
    energy M P A = 0 ↔ EachCell M fun k cell => elasticTensor M P A k cell = 0 := by
  constructor
  · intro h k hk cell hc
    by_contra hne
    have s := hS k hk cell hc
    refine (cellSum_pos (f := fun k cell => volume M P A k cell * density (penalty M P A k cell * (P k).bulk)
      (penalty M P A k cell * (P k).mat.shear) (elasticTensor M P A k cell)) ?_ hk hc ?_).ne' h
    · intro k hk cell hc
      have s := hS k hk cell hc
      exact mul_nonneg s.vol.le (density_nonneg (mul_nonneg s.pen.le s.bulk.le) (mul_nonneg s.pen.le s.shear.le) _)
    · refine mul_pos s.vol (lt_of_le_of_ne (density_nonneg (mul_nonneg s.pen.le s.bulk.le)
        (mul_nonneg s.pen.le s.shear.le) _) fun h => hne ?_)
      exact density_zero (mul_pos s.pen s.bulk) (mul_pos s.pen s.shear) h.symm
  · intro h
    unfold energy
    rw [cellSum_congr (g := fun _ _ => 0)]
    · simp [cellSum]
    · intro k hk cell hc
      rw [h k hk cell hc, density_eq]
      simp [deviator, nrm]

section Props
variable {M : FeModel} (hM : M.Ok) {P : Nat → WorkCrit ℝ} (hJ : WOk M P) (h2 : M.dim = 2)
  (hp : ∀ k, k < M.domains.length → (P k).plastic = false)
include hM hJ h2 hp

/-- **C76, elastic energy**: for plasticity without temperature in two dimensions the elastic work criterion is
the elastic energy stored at the end of the history. -/
theorem C76_energy (ht : ∀ k, k < M.domains.length → (P k).mat.thermal = false) {steps : Nat} {us cs : List (List ℝ)}
    {z x : List ℝ} (h : Steps M (localDofs M.dim) steps us cs z x) {rs : Nat → Run}
    (hrs : ∀ k, k < steps → (rs k).Ok M) (mult : ℝ) :
    problemValue M P mult rs steps us cs z x =
      .ok (mult * energy M P (after M (localDofs M.dim) us cs z x steps)) := by
  rw [C76_history hM hJ h hrs h2 hp, energy_start hJ ht, sub_zero]

/-- **C76, path**: two histories with the same last states have the same elastic work, whatever their numbers of
steps and the states on the way. -/
theorem C76_path {steps steps' : Nat} {us cs us' cs' : List (List ℝ)}
    {z x : List ℝ} (h : Steps M (localDofs M.dim) (steps + 1) us cs z x)
    (h' : Steps M (localDofs M.dim) (steps' + 1) us' cs' z x) {rs rs' : Nat → Run}
    (hrs : ∀ k, k < steps + 1 → (rs k).Ok M) (hrs' : ∀ k, k < steps' + 1 → (rs' k).Ok M)
    (hu : us.getD steps [] = us'.getD steps' []) (hc : cs.getD steps [] = cs'.getD steps' []) (mult : ℝ) :
    problemValue M P mult rs (steps + 1) us cs z x = problemValue M P mult rs' (steps' + 1) us' cs' z x := by
  rw [C76_history hM hJ h hrs h2 hp, C76_history hM hJ h' hrs' h2 hp]
  rw [energy_congr (A := after M (localDofs M.dim) us cs z x (steps + 1))
    (B := after M (localDofs M.dim) us' cs' z x (steps' + 1)) hu hc rfl rfl]
  rfl

/-- **C76, sign**: it is not negative, and zero if and only if no cell is strained elastically at the end. -/
theorem C76_nonneg (ht : ∀ k, k < M.domains.length → (P k).mat.thermal = false) {steps : Nat} {us cs : List (List ℝ)}
    {z x : List ℝ} (h : Steps M (localDofs M.dim) steps us cs z x) {rs : Nat → Run}
    (hrs : ∀ k, k < steps → (rs k).Ok M) {mult : ℝ} (hm : 0 < mult)
    (hS : EachCell M (Signs M P (after M (localDofs M.dim) us cs z x steps))) :
    (problemValue M P mult rs steps us cs z x).Sat fun v => 0 ≤ v ∧
      (v = 0 ↔ EachCell M fun k cell => elasticTensor M P (after M (localDofs M.dim) us cs z x steps) k cell = 0) := by
  rw [C76_energy hM hJ h2 hp ht h hrs, Res.sat_ok, ← energy_zero hS]
  exact ⟨mul_nonneg hm.le (energy_nonneg hS), by simp [hm.ne']⟩

/-- **C76 fails with temperature**: the first step starts from temperature zero instead of the reference
temperature.  A history that ends without any elastic strain, for example one that stays at rest at the reference
temperature, has negative elastic work as soon as one cell expands with temperature and its reference temperature is
not zero. -/
theorem C76_thermal_false {steps : Nat} {us cs : List (List ℝ)}
    {z x : List ℝ} (h : Steps M (localDofs M.dim) steps us cs z x) {rs : Nat → Run}
    (hrs : ∀ k, k < steps → (rs k).Ok M) {mult : ℝ} (hm : 0 < mult)
    (hS : EachCell M (Signs M P (after M (localDofs M.dim) us cs z x steps)))
    (hend : EachCell M fun k cell => elasticTensor M P (after M (localDofs M.dim) us cs z x steps) k cell = 0)
    {k cell : Nat} (hk : k < M.domains.length) (hc : cell ∈ dom M k) (ht : (P k).mat.thermal = true)
    (ha : (P k).mat.alpha ≠ 0) (hr : (P k).mat.tref ≠ 0) :
    (problemValue M P mult rs steps us cs z x).Sat fun v => v < 0 := by
  rw [C76_history hM hJ h hrs h2 hp, Res.sat_ok, (energy_zero hS).2 hend, zero_sub, mul_neg, neg_lt_zero]
  have hz : (after M (localDofs M.dim) us cs z x steps).z = z := by cases steps <;> rfl
  have hx : (after M (localDofs M.dim) us cs z x steps).x = x := by cases steps <;> rfl
  have hS' : EachCell M (Signs M P (after M (localDofs M.dim) us cs z x 0)) := by
    intro k hk cell hc
    obtain ⟨s1, s2, s3, s4⟩ := hS k hk cell hc
    refine ⟨?_, ?_, s3, s4⟩
    · unfold volume numbers cellData at s1 ⊢
      rw [hx] at s1
      exact s1
    · unfold penalty numbers cellData at s2 ⊢
      rw [hz] at s2
      exact s2
  refine mul_pos hm (lt_of_le_of_ne (energy_nonneg hS') fun h0 => ?_)
  have := (energy_zero hS').1 h0.symm k hk cell hc
  dsimp only at this
  rw [elastic_start hJ hk, ht, if_pos rfl] at this
  have h11 := congrFun (congrFun this 0) 0
  simp [ha, hr] at h11

end Props

end Plato.PWork
