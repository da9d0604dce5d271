import Verif.Cond.GradientX
import Mathlib.Tactic.IntervalCases
import Mathlib.Tactic.NormNum

/-!
# C83, C84, C85: a bar of two elements meets the hypotheses
-/

namespace Plato.Cond
open Finset Plato Plato.Mech Plato.J2 Plato.Plast

/-- Two elements in a row, two unknowns per node. -/
def bar : FeModel := ⟨1, 2, 2, 3, [0, 1, 1, 2], [0, 1, 3, 4], [1, 0, 2, 1], [[0, 1]]⟩

theorem bar_ok : bar.Ok where
  dim := by decide
  ndof := by decide
  mesh := ⟨by decide, by decide⟩
  adj := ⟨by decide, by decide, by decide, by decide, by decide⟩
  graph := by
    intro cell a b hc ha hb
    have ha : a < 2 := ha
    have hb : b < 2 := hb
    have hc : cell < 2 := hc
    interval_cases cell <;> interval_cases a <;> interval_cases b <;> decide
  some_domain := by decide
  cells := by decide

theorem bar_graph : Graph bar where
  nodup := by
    intro I hI
    have hI : I < 3 := hI
    interval_cases I <;> decide
  symm := by
    intro I J hI hJ
    have hI : I < 3 := hI
    have hJ : J < 3 := hJ
    interval_cases I <;> interval_cases J <;> decide

/-- The data of a step: the local state grows with the control of the cell, the global state is the control. -/
noncomputable def barStep : Step where
  L := { r := fun _ => 1, H := fun _ _ => 1, RU := fun _ l s => if l = s then 1 else 0, RC := fun _ _ _ => 0,
         HU := fun _ _ _ => 0, HC := fun _ _ _ => 1 }
  F := { fU := fun _ _ => 1, fC := fun _ _ => 1 }
  N := { fUp := fun _ _ => 0, fCp := fun _ _ => 0, RUp := fun _ _ _ => 0, RCp := fun _ _ _ => 0, HUp := fun _ _ _ => 0,
         HCp := fun _ _ _ => -1, PN := fun _ _ _ => 1 }
  RN := fun _ _ _ => 0
  RZ := fun _ l m => if l / 2 = m then -1 else 0
  PZ := fun _ _ _ => 1
  HZ := fun _ _ _ => -1
  fZ := fun _ _ => 1
  rs := fun _ => 1

/-- The identity of three rows. -/
noncomputable def barOne : Crs ℝ := ⟨[0, 1, 2, 3], [0, 1, 2], [1, 1, 1], some 3, some 3, 1, 1⟩
/-- A zero matrix of three block rows and columns, blocks of one row and two columns. -/
noncomputable def barZero : Crs ℝ := ⟨[0, 0, 0, 0], [], [], some 3, some 6, 1, 2⟩

noncomputable def barE : Eqs where
  r _ _ := .ok (List.replicate 6 1)
  rU _ _ := .ok ⟨2, 4, 4, barStep.L.RU⟩
  rUp _ _ := .ok ⟨2, 4, 4, barStep.N.RUp⟩
  rC _ _ := .ok ⟨2, 4, 1, barStep.L.RC⟩
  rCp _ _ := .ok ⟨2, 4, 1, barStep.N.RCp⟩
  rZ _ _ := .ok ⟨2, 4, 2, barStep.RZ⟩
  rX _ _ := .ok ⟨2, 4, 2, fun _ _ _ => 1⟩
  rNT _ _ := .ok barZero
  h _ _ := .ok ⟨2, 1, barStep.L.H⟩
  hU _ _ := .ok ⟨2, 1, 4, barStep.L.HU⟩
  hUp _ _ := .ok ⟨2, 1, 4, barStep.N.HUp⟩
  hC _ _ := .ok ⟨2, 1, 1, barStep.L.HC⟩
  hCp _ _ := .ok ⟨2, 1, 1, barStep.N.HCp⟩
  hZ _ _ := .ok ⟨2, 1, 2, barStep.HZ⟩
  hX _ _ := .ok ⟨2, 1, 2, fun _ _ _ => 1⟩

noncomputable def barP : ProjEq where
  pN _ _ _ _ := .ok ⟨2, 2, 2, barStep.N.PN⟩
  pZ _ _ _ _ := .ok ⟨2, 2, 2, barStep.PZ⟩
  pX _ _ _ _ := .ok ⟨2, 2, 2, fun _ _ _ => 1⟩
  pUT _ _ _ _ := .ok barOne

noncomputable def barC : Cri where
  fU _ _ := .ok ⟨2, 4, barStep.F.fU⟩
  fUp _ _ := .ok ⟨2, 4, barStep.N.fUp⟩
  fC _ _ := .ok ⟨2, 1, barStep.F.fC⟩
  fCp _ _ := .ok ⟨2, 1, barStep.N.fCp⟩

noncomputable def barFS (k : Nat) : FState where
  g := { loc := { u := List.replicate 6 0, up := List.replicate 6 0, c := List.replicate 2 0, cp := List.replicate 2 0, z := List.replicate 3 1, x := [0, 1, 2] }, n := List.replicate 3 0 }
  press := List.replicate 3 0
  step := k

noncomputable def barfZ (_ : Nat) : Res (V2 ℝ) := .ok ⟨2, 2, barStep.fZ⟩

theorem is3 {n m k : Nat} {f : Nat → Nat → Nat → ℝ} : (Res.ok (⟨n, m, k, f⟩ : V3 ℝ)).Sat (Is3 n m k f) :=
  Res.Sat.ok ⟨rfl, rfl, rfl, fun _ _ _ _ _ _ => rfl⟩
theorem is2 {n m : Nat} {f : Nat → Nat → ℝ} : (Res.ok (⟨n, m, f⟩ : V2 ℝ)).Sat (Is2 n m f) :=
  Res.Sat.ok ⟨rfl, rfl, fun _ _ _ _ => rfl⟩

theorem bar_jacs (k : Nat) : Jacs bar 1 barE (barFS k).g (barFS k).step barStep.L := ⟨is3, is3, is3, is3⟩

theorem bar_vals (k : Nat) : Vals bar 1 barE (barFS k).g (barFS k).step barStep.L where
  r := Res.Sat.ok ⟨rfl, fun q hq => by
    have hq : q < 6 := hq
    interval_cases q <;> rfl⟩
  h := is2

theorem bar_lead : ∀ m, m ≤ 1 → blas3.Leading (fun _ _ => (1 : ℝ)) m := by
  intro m hm v hv j hj
  have : m = 1 := by omega
  subst this
  have : j = 0 := by omega
  subst this
  simpa using hv 0 (by omega)

theorem bar_hist (n : Nat) : Hist bar 1 barE barC barP 1 n barFS barfZ fun _ => barStep where
  step _ _ := rfl
  jac k _ := bar_jacs k
  lead _ _ _ _ := bar_lead
  cri _ _ := ⟨is2, is2⟩
  next _ _ := ⟨is2, is2, is3, is3, is3, is3, is3⟩
  proj k _ _ :=
    { rNT := Res.Sat.ok ⟨⟨by decide, by decide, rfl, rfl, by decide, rfl, by decide, rfl, rfl, rfl⟩, rfl, rfl, fun i j hi => by
        have hi : i < 3 := hi
        have e1 : scattered bar.npc bar.ndof bar.dim bar.c2n none bar.nc barStep.RN j i = 0 := by
          unfold scattered
          refine sum_eq_zero fun c _ => sum_eq_zero fun l _ => sum_eq_zero fun s _ => ?_
          split_ifs <;> rfl
        rw [e1]
        unfold Crs.dense
        interval_cases i <;> simp [barZero, atN, at0]⟩
      pUT := fun p _ _ => Res.Sat.ok ⟨⟨by decide, by decide, rfl, rfl, by decide, rfl, by decide, rfl, rfl, rfl⟩, rfl, rfl, fun q hq => by
        have hq : q < 3 := hq
        show ∑ j ∈ range 3, _ = (1 : ℝ)
        interval_cases q <;> norm_num [sum_range_succ, Crs.dense, barOne, atN, at0]⟩
      rs := fun _ _ => one_ne_zero
      press := rfl
      up := rfl }
  control _ _ := ⟨is3, is3, is3⟩
  fZ _ _ := is2

noncomputable def barD : Bcs := ⟨[0], serialSched, [0], [0]⟩

theorem barD_ok : barD.Ok bar where
  some := by decide
  nodup := by decide
  lt := by decide
  merge := serialSched_isMerge
  vals := List.Perm.refl _
  rows := List.Perm.refl _

def barS : Sched where
  cell _ := List.range 2
  dofs i := if i < 4 then List.range 6 else if i = 4 then List.range 3 else List.range 2
  create := List.range 3
  rows := List.range 3
  prod := List.range 3
  jac := List.range 32
  vec _ := List.range 8
  grad := List.range 4

theorem barS_ok : barS.Ok2 bar 1 where
  ok :=
    { cell := fun _ => List.Perm.refl _
      dofs := fun i hi => by
        show (if i < 4 then _ else _ : List Nat).Perm _
        rw [if_pos hi]
        exact List.Perm.refl _
      dofs4 := List.Perm.refl _
      create := List.Perm.refl _
      rows := List.Perm.refl _
      prod := List.Perm.refl _
      jac := List.Perm.refl _
      vec := fun _ => List.Perm.refl _ }
  dofs5 := List.Perm.refl _
  grad := List.Perm.refl _

open Classical in
/-- A solver that returns a solution if there is one. -/
noncomputable def exactSolver (K : Crs ℝ) (_ f : List ℝ) : Res (List ℝ) :=
  if h : ∃ y : List ℝ, y.length = f.length ∧ ∀ i, i < f.length → ∑ j ∈ range f.length, K.dense i j * at0 y j = at0 f i
  then .ok h.choose else throwErr "singular"

theorem exactSolver_ok : Solver exactSolver := by
  intro K x f y hy
  unfold exactSolver at hy
  split_ifs at hy with h
  · cases hy
    exact h.choose_spec
  · cases hy

noncomputable def barDu (dz : Nat → ℝ) (_ q : Nat) : ℝ := if q = 0 then 0 else dz (q / 2)
noncomputable def barDc (dz : Nat → ℝ) (k : Nat) (p : Nat × Nat) : ℝ := (k + 1) * (dz p.1 + dz (p.1 + 1))
noncomputable def barDn (dz : Nat → ℝ) (k q : Nat) : ℝ := if k = 0 then 0 else
  - scatteredVec bar.npc bar.dim bar.c2n none bar.nc (fun c l =>
    ∑ m ∈ range bar.npc, barStep.N.PN c l m * before (barDu dz) k (dof bar c (m * bar.ndof + 1)) +
    ∑ m ∈ range bar.npc, barStep.PZ c l m * dz (zdof bar c m)) q

theorem bar_tangent (n : Nat) (dz : Nat → ℝ) : Tangent bar 1 1 barD.dofs n (fun _ => barStep) (barDu dz) (barDc dz) (barDn dz) dz where
  loc := by
    intro k _ c i hc _
    have hc : c < 2 := hc
    interval_cases c <;> rcases k with - | k <;>
    · simp [barStep, ng, bar, FeModel.npc, sum_range_succ, barDc, before, zdof, cellDof, cellNode, atN, at0]
      try ring
  glob := by
    intro k _ q hq hn
    have hq : q < 6 := hq
    have hn : q ≠ 0 := by simpa [barD] using hn
    interval_cases q
    · exact absurd rfl hn
    all_goals
      simp [scatteredVec, gcell, barStep, ng, bar, FeModel.npc, sum_range_succ, barDu, before, dof, zdof, cellDof, cellNode, atN, at0]
  fixed := by
    intro k _ q hq
    have : q = 0 := by simpa [barD] using hq
    subst this
    rfl
  first q _ := rfl
  proj := by
    intro k _ h0 q _
    unfold barDn
    rw [if_neg h0]
    show 1 * _ + _ = _
    ring

/-- The theorem applies to two steps of the bar: the criterion changes with the control. -/
example (dz : Nat → ℝ) : Post (criterionGradientZ bar 1 barE barC barP 1 exactSolver barD (fun _ => barS) 2 barFS barfZ) fun g =>
    g.length = 3 ∧ ∑ q ∈ range 3, at0 g q * dz q =
      ∑ k ∈ range 2, criterionAlong bar 1 (fun _ => barStep) (barDu dz) (barDc dz) dz k :=
  C85_gradient_partial bar_ok bar_graph (by decide) (by decide) (by decide) (bar_hist 2) (fun _ _ => barS_ok) exactSolver_ok
    barD_ok (bar_tangent 2 dz)

example : ∑ k ∈ range 2, criterionAlong bar 1 (fun _ => barStep) (barDu fun _ => 1) (barDc fun _ => 1) (fun _ => 1) k = 34 := by
  norm_num [criterionAlong, sum_range_succ, barStep, ng, bar, FeModel.npc, barDu, barDc, before, dof, zdof, cellDof, cellNode, atN, at0]

/-- The condensed Newton system of the bar. -/
example : (newtonSystem bar 1 barE barS (barFS 0) (zero3 bar 1 1)).Sat fun s =>
    ∀ du : Nat → ℝ, (∀ q, q < 6 → ∑ j ∈ range 6, s.1.dense q j * du j = at0 s.2 q) ↔
      ∃ dc, Linearised bar 1 barStep.L du dc :=
  (C83_newton_system bar_ok (by decide) (by decide) barS_ok.ok (bar_jacs 0) (bar_vals 0) ⟨rfl, rfl, rfl⟩ (fun _ _ => bar_lead)).mono
    fun _ h => h.2.2.2.2

/-- The gradient by the coordinates is not computed on the bar. -/
theorem C85_configuration_bar (n : Nat) (hn : 0 < n) (fX : Nat → Res (V2 ℝ)) (g : List ℝ) :
    criterionGradientX bar 1 barE barC barP 1 exactSolver barD (fun _ => barS) n barFS fX ≠ .ok g :=
  C85_configuration_false (fZ := barfZ) (Sk := fun _ => barS) (c := 1) (b := 1) (RX := fun _ _ _ => 1) (PX := fun _ _ _ => 1) (HX := fun _ _ _ => 1)
    bar_ok bar_graph (by decide) (by decide) hn (by decide) (bar_hist n) ⟨is3, is3, is3⟩ barS_ok.ok barS_ok.dofs5 barS_ok.grad
    exactSolver_ok barD_ok (by decide) (by decide) (by decide) fX g

end Plato.Cond
