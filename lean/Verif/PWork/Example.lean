import Verif.PWork.False
import Verif.PWork.Gradient

/-!
# C76, C77 and C78 on a square of two cells and two domains
-/

namespace Plato.PWork
open Finset Plato Plato.Mech Plato.J2 Plato.Plast

/-- Unit material without kinematic hardening. -/
noncomputable def slabW (plastic : Bool) : WorkCrit ℝ where
  mat := { slabJ with hardKin := 0 }
  plastic := plastic
  cubWeight := 1 / 2
  bulk := 1
  pen := id

theorem slabW_ok (b : Bool) : WOk Tm.slab fun _ => slabW b :=
  ⟨.inl rfl, fun _ _ => rfl, fun _ _ => rfl, fun _ _ => by simp [slabW, slabJ, Tm.slab]⟩

theorem slabRun_ok : oneRun.Ok Tm.slab := by
  refine ⟨slab_ord, slab_sched, fun k hk => ?_⟩
  have hk : k < 2 := hk
  interval_cases k <;> exact List.Perm.refl _

/-- The arguments after any step have densities one and the corners of the square. -/
structure Slab (A : Args ℝ) : Prop where
  z : A.z = [1, 1, 1, 1]
  x : A.x = Tm.slabX

theorem Slab.density {A : Args ℝ} (h : Slab A) (cell : Nat) (hc : cell < 2) :
    meanDensity 3 (numbers Tm.slab A cell).z = 1 := by
  simp only [meanDensity, numbers, cellData, h.z]
  interval_cases cell <;>
    norm_num [Tm.slab, cellNode, FeModel.npc, at0, atN, plainMk, plainOf, sum_range_succ]

theorem Slab.det {A : Args ℝ} (h : Slab A) (cell : Nat) (hc : cell < 2) : detForm 2 (numbers Tm.slab A cell).x = 1 := by
  simp only [numbers, cellData, h.x]
  interval_cases cell <;>
    norm_num [Tm.slab, Tm.slabX, cellNode, FeModel.npc, at0, atN, plainMk, plainOf, detForm, edge]

theorem Slab.signs {A : Args ℝ} (h : Slab A) (b : Bool) : EachCell Tm.slab (Signs Tm.slab (fun _ => slabW b) A) := by
  refine slab_each ?_ ?_
  all_goals
    refine ⟨?_, ?_, by norm_num [slabW], by norm_num [slabW, slabJ]⟩
    · unfold volume
      rw [show Tm.slab.dim = 2 from rfl, h.det _ (by omega)]
      norm_num [slabW]
    · unfold penalty
      rw [show Tm.slab.dim + 1 = 3 from rfl, h.density _ (by omega)]
      norm_num [slabW]

theorem slab_after (us cs : List (List ℝ)) (j : Nat) :
    Slab (after Tm.slab (localDofs Tm.slab.dim) us cs [1, 1, 1, 1] Tm.slabX j) := by
  cases j <;> exact ⟨rfl, rfl⟩

theorem slab_mats (b : Bool) (us cs : List (List ℝ)) (j : Nat) : EachCell Tm.slab fun k cell =>
    (matOf Tm.slab (fun _ => (slabW b).mat) (after Tm.slab (localDofs Tm.slab.dim) us cs [1, 1, 1, 1] Tm.slabX j) k cell).Ok ∧
    (matOf Tm.slab (fun _ => (slabW b).mat) (after Tm.slab (localDofs Tm.slab.dim) us cs [1, 1, 1, 1] Tm.slabX j) k cell).H = 0 := by
  have h := slab_after us cs j
  have key : ∀ cell, cell < 2 → ∀ k, (matOf Tm.slab (fun _ => (slabW b).mat)
      (after Tm.slab (localDofs Tm.slab.dim) us cs [1, 1, 1, 1] Tm.slabX j) k cell).Ok ∧
      (matOf Tm.slab (fun _ => (slabW b).mat) (after Tm.slab (localDofs Tm.slab.dim) us cs [1, 1, 1, 1] Tm.slabX j) k cell).H = 0 := by
    intro cell hc k
    have e := h.density cell hc
    constructor
    · constructor <;> simp only [matOf, J2.mat, slabW, slabJ, id] <;> rw [e] <;> norm_num
    · simp [matOf, J2.mat, slabW]
  exact slab_each (key 0 (by omega) 0) (key 1 (by omega) 1)

/-- A history of two steps, a shear and its release, whose local states are those of the update; the first step
yields. -/
theorem slab_history : ∃ cs : List (List ℝ), Steps Tm.slab (localDofs Tm.slab.dim) 2 [slabA.u, List.replicate 12 0] cs
      [1, 1, 1, 1] Tm.slabX ∧
    Updated Tm.slab (fun _ => (slabW true).mat) 2 [slabA.u, List.replicate 12 0] cs [1, 1, 1, 1] Tm.slabX := by
  have hJ : JOk Tm.slab fun _ => (slabW true).mat := slabW_ok true
  have hcon : Consts Tm.slab fun _ => (slabW true).mat := fun _ _ => ⟨rfl, rfl⟩
  have l0 : (List.replicate 20 (0 : ℝ)).length = Tm.slab.nc * localDofs Tm.slab.dim := by
    rw [List.length_replicate]; rfl
  let A1 : Args ℝ := ⟨slabA.u, List.replicate 12 0, List.replicate 20 0, List.replicate 20 0, [1, 1, 1, 1], Tm.slabX⟩
  have hA1 : A1.Ok Tm.slab (localDofs Tm.slab.dim) :=
    ⟨slabA_ok.u, by rw [List.length_replicate]; rfl, l0, l0, slabA_ok.z, slabA_ok.x⟩
  have hS : EachCell Tm.slab fun _ cell => (stateOf Tm.slab (List.replicate 20 (0 : ℝ)) cell).Ok := fun k hk cell hc => by
    have := state_start (slabW_ok true) (us := []) (cs := []) (z := []) (x := []) cell
    have e : stateOf Tm.slab (List.replicate 20 (0 : ℝ)) cell = ⟨0, 0, 0, 0⟩ := this
    dsimp only
    rw [e]
    exact ⟨le_rfl, by simp, by simp⟩
  obtain ⟨c1, e1, n1, r1, -⟩ := C63_update Tm.slab_ok slab_blocks hJ hcon hA1
    (fun k hk cell hc => (slab_mats true [slabA.u] [] 1 k hk cell hc).1) hS slab_ord slab_sched
  have hS1 : EachCell Tm.slab fun _ cell => (stateOf Tm.slab c1 cell).Ok := fun k hk cell hc =>
    (returned_facts (slab_mats true [slabA.u] [] 1 k hk cell hc).1 (hS k hk cell hc) (r1 k hk cell hc)).1
  let A2 : Args ℝ := ⟨List.replicate 12 0, slabA.u, List.replicate 20 0, c1, [1, 1, 1, 1], Tm.slabX⟩
  have hA2 : A2.Ok Tm.slab (localDofs Tm.slab.dim) :=
    ⟨by rw [List.length_replicate]; rfl, slabA_ok.u, l0, n1, slabA_ok.z, slabA_ok.x⟩
  obtain ⟨c2, e2, n2, -⟩ := C63_update Tm.slab_ok slab_blocks hJ hcon hA2
    (fun k hk cell hc => (slab_mats true [slabA.u] [] 1 k hk cell hc).1) hS1 slab_ord slab_sched
  refine ⟨[c1, c2], ⟨le_rfl, le_rfl, ?_, ?_, slabA_ok.z, slabA_ok.x⟩, ?_⟩
  · intro k hk
    interval_cases k
    · exact slabA_ok.u
    · show (List.replicate 12 (0 : ℝ)).length = _
      rw [List.length_replicate]; rfl
  · intro k hk
    interval_cases k
    · exact n1
    · exact n2
  · intro k hk
    interval_cases k
    · exact ⟨_, _, List.replicate 20 0, slab_ord, slab_sched, l0, e1⟩
    · exact ⟨_, _, List.replicate 20 0, slab_ord, slab_sched, l0, e2⟩

/-- The hypotheses of the theorem on dissipation can be met. -/
example : ∃ cs : List (List ℝ), (problemValue Tm.slab (fun _ => slabW true) 1 (fun _ => oneRun) 2
    [slabA.u, List.replicate 12 0] cs [1, 1, 1, 1] Tm.slabX).Sat fun v =>
      -(1 * (tolerance / 2 * cellSum Tm.slab fun k cell => volume Tm.slab (fun _ => slabW true)
        (after Tm.slab (localDofs Tm.slab.dim) [slabA.u, List.replicate 12 0] cs [1, 1, 1, 1] Tm.slabX 0) k cell *
        (ratio Tm.slab (fun _ => slabW true)
          (after Tm.slab (localDofs Tm.slab.dim) [slabA.u, List.replicate 12 0] cs [1, 1, 1, 1] Tm.slabX 0) k cell *
          (stateOf Tm.slab (after Tm.slab (localDofs Tm.slab.dim) [slabA.u, List.replicate 12 0] cs [1, 1, 1, 1]
            Tm.slabX 2).c cell).acc))) ≤ v := by
  obtain ⟨cs, h, hu⟩ := slab_history
  refine ⟨cs, C77_dissipation Tm.slab_ok slab_blocks (slabW_ok true) (fun _ _ => ⟨rfl, rfl⟩) h (slab_mats true _ _ 0) hu
    (fun _ _ => rfl) ?_ zero_le_one fun _ _ => slabRun_ok⟩
  have hs := slab_after [slabA.u, List.replicate 12 0] cs 0
  intro k hk cell hc
  refine ⟨?_, (hs.signs true k hk cell hc).vol.le⟩
  have hlt : cell < 2 := dom_lt Tm.slab_ok hk hc
  unfold ratio penalty
  rw [show Tm.slab.dim + 1 = 3 from rfl, show (slabW true).mat.d + 1 = 3 from rfl, hs.density cell hlt]
  norm_num [slabW, slabJ]

/-- One elastic step: the hypotheses of the theorems on elastic work can be met and the energy is not zero. -/
example : (problemValue Tm.slab (fun _ => slabW false) 1 (fun _ => oneRun) 1 [slabA.u] [List.replicate 20 0] [1, 1, 1, 1]
    Tm.slabX).Sat fun v => 0 < v := by
  have h : Steps Tm.slab (localDofs Tm.slab.dim) 1 [slabA.u] [List.replicate 20 0] [1, 1, 1, 1] Tm.slabX := by
    refine ⟨le_rfl, le_rfl, ?_, ?_, slabA_ok.z, slabA_ok.x⟩ <;> intro k hk <;> interval_cases k
    · exact slabA_ok.u
    · show (List.replicate 20 (0 : ℝ)).length = _
      rw [List.length_replicate]; rfl
  have hs := slab_after [slabA.u] [List.replicate 20 0] 1
  refine (C76_nonneg Tm.slab_ok (slabW_ok false) rfl (fun _ _ => rfl) (fun _ _ => rfl) h (rs := fun _ => oneRun)
    (fun _ _ => slabRun_ok) one_pos (hs.signs false)).mono ?_
  rintro v ⟨h1, h2⟩
  refine lt_of_le_of_ne h1 fun h0 => ?_
  have e := h2.1 h0.symm 0 (by decide) 0 (by decide)
  dsimp only at e
  have e' := congrFun (congrFun e 0) 1
  have hst : stateOf Tm.slab (List.replicate 20 (0 : ℝ)) 0 = ⟨0, 0, 0, 0⟩ :=
    state_start (slabW_ok true) (us := []) (cs := []) (z := []) (x := []) 0
  unfold elasticTensor strainOf J2.mechStrain at e'
  have hst' : stateOf Tm.slab (after Tm.slab (localDofs Tm.slab.dim) [slabA.u] [List.replicate 20 0] [1, 1, 1, 1] Tm.slabX 1).c 0 =
      ⟨0, 0, 0, 0⟩ := hst
  rw [hst'] at e'
  norm_num [smallStrain, fieldGrad, slabW, slabJ, numbers, cellData, slabA, Tm.slab, Tm.slabX, cellNode, cellDof, FeModel.npc, at0,
    atN, plainMk, plainOf, sum_range_succ, gradForm, cofForm, detForm, edge, after, J2.therm, J2.ndof] at e'

/-! ## At rest at the reference temperature -/

/-- The square with a temperature. -/
def slabT : FeModel := { Tm.slab with ndof := 4 }

theorem slabT_ok : slabT.Ok where
  dim := by decide
  ndof := by decide
  mesh := ⟨by decide, by decide⟩
  adj := ⟨by decide, by decide, by decide, by decide, by decide⟩
  graph := Tm.slab_ok.graph
  some_domain := by decide
  cells := by decide

noncomputable def slabTW : WorkCrit ℝ := { slabW false with mat := { slabJ with thermal := true, alpha := 1, tref := 1 } }

/-- No displacement, no pressure, temperature one. -/
noncomputable def restU : List ℝ := [0, 0, 1, 0, 0, 0, 1, 0, 0, 0, 1, 0, 0, 0, 1, 0]

/-- Two cells at rest at the reference temperature: the elastic work is negative. -/
theorem C76_rest_negative : (problemValue slabT (fun _ => slabTW) 1 (fun _ => oneRun) 1 [restU] [List.replicate 20 0]
    [1, 1, 1, 1] Tm.slabX).Sat fun v => v < 0 := by
  have hJ : WOk slabT fun _ => slabTW :=
    ⟨.inl rfl, fun _ _ => rfl, fun _ _ => rfl, fun _ _ => by simp [slabTW, slabJ, slabT, Tm.slab]⟩
  have h : Steps slabT (localDofs slabT.dim) 1 [restU] [List.replicate 20 0] [1, 1, 1, 1] Tm.slabX := by
    refine ⟨le_rfl, le_rfl, ?_, ?_, slabA_ok.z, slabA_ok.x⟩ <;> intro k hk <;> interval_cases k
    · rfl
    · show (List.replicate 20 (0 : ℝ)).length = _
      rw [List.length_replicate]; rfl
  have hs : Slab (after slabT (localDofs slabT.dim) [restU] [List.replicate 20 0] [1, 1, 1, 1] Tm.slabX 1) := ⟨rfl, rfl⟩
  have hrun : oneRun.Ok slabT := ⟨slabRun_ok.ord, slabRun_ok.sch, slabRun_ok.chunks⟩
  refine C76_thermal_false slabT_ok hJ rfl (fun _ _ => rfl) h (rs := fun _ => oneRun) (fun _ _ => hrun) one_pos ?_ ?_
    (k := 0) (cell := 0) (by decide) (by decide) rfl one_ne_zero one_ne_zero
  · have key : ∀ cell, cell < 2 → Signs slabT (fun _ => slabTW) (after slabT (localDofs slabT.dim) [restU]
        [List.replicate 20 0] [1, 1, 1, 1] Tm.slabX 1) cell cell := by
      intro cell hc
      refine ⟨?_, ?_, by norm_num [slabTW, slabW], by norm_num [slabTW, slabJ]⟩
      · have e := hs.det cell hc
        change detForm 2 (numbers slabT _ _).x = 1 at e
        unfold volume
        change 0 < |detForm 2 _| * _
        rw [e]
        norm_num [slabTW, slabW]
      · have e := hs.density cell hc
        change meanDensity 3 (numbers slabT _ _).z = 1 at e
        unfold penalty
        change 0 < slabTW.pen (meanDensity 3 _)
        rw [e]
        norm_num [slabTW, slabW]
    exact slab_each (key 0 (by omega)) (key 1 (by omega))
  · have hst : ∀ cell, stateOf slabT (after slabT (localDofs slabT.dim) [restU] [List.replicate 20 0] [1, 1, 1, 1] Tm.slabX 1).c cell =
        ⟨0, 0, 0, 0⟩ := fun cell => state_start hJ (us := []) (cs := []) (z := []) (x := []) cell
    have key : ∀ cell, cell < 2 → elasticTensor slabT (fun _ => slabTW) (after slabT (localDofs slabT.dim) [restU]
        [List.replicate 20 0] [1, 1, 1, 1] Tm.slabX 1) cell cell = 0 := by
      intro cell hc
      have hu : ∀ n i, n < 3 → i < 2 → (numbers slabT (after slabT (localDofs slabT.dim) [restU] [List.replicate 20 0]
          [1, 1, 1, 1] Tm.slabX 1) cell).u (n * 4 + i) = 0 := by
        intro n i hn hi
        interval_cases cell <;> interval_cases n <;> interval_cases i <;> rfl
      have hT : slabTW.mat.therm (numbers slabT (after slabT (localDofs slabT.dim) [restU] [List.replicate 20 0]
          [1, 1, 1, 1] Tm.slabX 1) cell).u = 0 := by
        have e : ∀ n, n < 3 → (numbers slabT (after slabT (localDofs slabT.dim) [restU] [List.replicate 20 0]
            [1, 1, 1, 1] Tm.slabX 1) cell).u (n * 4 + 2) = 1 := by
          intro n hn
          interval_cases cell <;> interval_cases n <;> rfl
        have e0 := e 0 (by omega); have e1 := e 1 (by omega); have e2 := e 2 (by omega)
        norm_num at e0 e1 e2
        unfold J2.therm J2.temp J2.ndof
        generalize (numbers slabT _ cell).u = U at e0 e1 e2
        norm_num [slabTW, slabJ, at0, sum_range_succ, e0, e1, e2]
      unfold elasticTensor strainOf J2.mechStrain
      rw [hst, hT, zero_smul, sub_zero, sub_zero]
      ext i j
      unfold smallStrain
      split_ifs with hij
      · have hg : ∀ i j, i < 2 → fieldGrad slabTW.mat.d (fun n k => (numbers slabT (after slabT (localDofs slabT.dim) [restU]
            [List.replicate 20 0] [1, 1, 1, 1] Tm.slabX 1) cell).u (n * slabTW.mat.ndof + k)) (gradForm slabTW.mat.d
            (numbers slabT (after slabT (localDofs slabT.dim) [restU] [List.replicate 20 0] [1, 1, 1, 1] Tm.slabX 1) cell).x)
            i j = 0 := by
          intro i j hi
          refine sum_eq_zero fun n hn => ?_
          rw [mem_range] at hn
          exact mul_eq_zero_of_left (hu n i hn hi) _
        rw [hg i j hij.1, hg j i hij.2]
        simp
      · rfl
    exact slab_each (key 0 (by omega)) (key 1 (by omega))

theorem slab_regular (b : Bool) {A : Args ℝ} (hA : Slab A) :
    EachCell Tm.slab fun k cell => Regular (slabW b) (fun a => a) (numbers Tm.slab A cell) := by
  have key : ∀ cell, cell < 2 → Regular (slabW b) (fun a => a) (numbers Tm.slab A cell) := fun cell hc =>
    ⟨by rw [show (slabW b).mat.d = 2 from rfl, hA.det cell hc]; exact one_ne_zero,
      1, hasDerivAt_id _, fun a ha => ⟨ha, fun k => (one_mul _).symm⟩⟩
  exact slab_each (key 0 (by omega)) (key 1 (by omega))

/-- The hypotheses of the theorems on C78 can be met. -/
example := C78_gradient_u (u := fun _ => 1) (pF := fun _ a => a) Tm.slab_ok slab_blocks (slabW_ok true) slabA_ok slab_ord
  slab_sched (o := [0, 1]) (List.Perm.refl _) 1 (slab_regular true ⟨rfl, rfl⟩) (r := fun _ => oneRun) fun _ => slabRun_ok

end Plato.PWork
