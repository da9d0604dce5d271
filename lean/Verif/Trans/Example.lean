import Verif.Trans.Shipped
import Verif.HeatCrit.Example

/-!
# Concrete cases for C89
-/

namespace Plato.Trans
open Finset Plato Plato.Mech Plato.Crit Plato.Thermal Plato.HeatCrit

/-- Iterations in order. -/
def seqT (M : FeModel) (w : Nat) : TSched where
  ctl k := List.range (M.size (M.part k))
  cfg k := List.range (M.size (M.part k))
  st k _ _ := List.range (M.size (M.part k))
  asm k _ := List.range (M.size (M.part k) * w)
  sum k _ := [List.range (M.size (M.part k))]

theorem seqT_ok (M : FeModel) (F T w : Nat) : (seqT M w).Ok M F T w :=
  ⟨fun _ _ => IsSchedule.range _, fun _ _ => IsSchedule.range _, fun _ _ _ _ _ _ => IsSchedule.range _,
    fun _ _ _ _ => IsSchedule.range _, fun _ _ _ _ => by
      unfold IsPartition
      simp [seqT]⟩

/-- A history of the rod with two steps: state and rate. -/
def rodHist (u0 u1 v0 v1 : List ℝ) : List (List (List ℝ)) := [[u0, u1], [v0, v1]]

theorem rodHist_ok {u0 u1 v0 v1 : List ℝ} (h0 : u0.length = 2) (h1 : u1.length = 2) (h2 : v0.length = 2)
    (h3 : v1.length = 2) : HistOk rod 2 (rodHist u0 u1 v0 v1) 2 := by
  refine ⟨by decide, by decide, fun f hf => ?_⟩
  have e : rod.nn * rod.ndof = 2 := rfl
  rw [e]
  interval_cases f
  · exact ⟨[u0, u1], rfl, rfl, by simp [h0, h1]⟩
  · exact ⟨[v0, v1], rfl, rfl, by simp [h2, h3]⟩

/-- The first node of the rod. -/
def node0 : Fin rod.nn := ⟨0, by decide⟩
/-- The two degrees of freedom of the rod. -/
def dof0 : Fin (rod.nn * rod.ndof) := ⟨0, by decide⟩
@[inherit_doc dof0] def dof1 : Fin (rod.nn * rod.ndof) := ⟨1, by decide⟩

/-! ## A criterion that reads the rate -/

/-- Control times rate at the first node of each cell. -/
def rateEval {R : Type} [Mul R] (n : Nat → Nat) : TEvaluator R :=
  fun k w z _ _ _ => .ok ((List.range (n k)).map fun c => z.e c 0 * (w 1).e c 0)

theorem rateEval_tracks {E : Type} [NormedAddCommGroup E] [NormedSpace ℝ E] (dt : ℝ) (x : E) :
    TTracks rod 2 (rateEval fun k => rod.size (rod.part k)) (rateEval fun k => rod.size (rod.part k))
      (fun _ _ _ => True) dt x := by
  intro k N L sF zF xF sR zR xR hk pF pR hs hz hx hg
  refine ⟨_, fun y => _, rfl, fun y => rfl, by simp, by simp, fun c hc => ?_⟩
  rw [at0_eq (by simpa using hc), List.getElem_map, List.getElem_range]
  refine ((hz c 0 hc (by decide)).mul (hs 1 c 0 (by decide) hc (by decide))).congr ?_
  funext y
  rw [at0_eq (by simpa using hc), List.getElem_map, List.getElem_range]

theorem rateEval_computes {R : Type} [CommRing R] (dt : ℝ) :
    TComputes rod 2 (rateEval (R := R) fun k => rod.size (rod.part k)) dt fun _ U Z _ => Z 0 * U 1 0 := by
  intro k s z x hk hp
  refine ⟨_, rfl, by simp, fun c hc => ?_⟩
  rw [at0_eq (by simpa using hc), List.getElem_map, List.getElem_range]

/-- **C89 is false** for criteria of parabolic problems that read the rate: the value of this criterion is the control
of the first node, and the gradient that the parabolic class reports is zero; the hyperbolic class reports the
derivative. -/
theorem C89_late_rate_false (dt : ℝ) (u0 u1 : List ℝ) (h0 : u0.length = 2) (h1 : u1.length = 2) :
    (∀ y : Fin rod.nn → ℝ, transValue rod 2 (rateEval fun k => rod.size (rod.part k)) Post.none (seqT rod 2)
      (rodHist u0 u1 [0, 0] [1, 0]) (List.ofFn y) [0, 1] dt = .ok (y node0)) ∧
    (∃ g, transGradZ rod 2 (rateEval fun k => rod.size (rod.part k)) Post.none (seqT rod 2) lateRate
      (rodHist u0 u1 [0, 0] [1, 0]) [1, 1] [0, 1] dt = .ok g ∧ ∀ q, at0 g q = 0) ∧
    Reports rod.nn (fun y => transValue rod 2 (rateEval fun k => rod.size (rod.part k)) Post.none (seqT rod 2)
      (rodHist u0 u1 [0, 0] [1, 0]) y [0, 1] dt)
      (transGradZ rod 2 (rateEval fun k => rod.size (rod.part k)) Post.none (seqT rod 2) sameStep
        (rodHist u0 u1 [0, 0] [1, 0]) (List.ofFn rodZ) [0, 1] dt) rodZ := by
  have hH := rodHist_ok h0 h1 (v0 := [0, 0]) (v1 := [1, 0]) rfl rfl
  refine ⟨fun y => ?_, ?_, ?_⟩
  · rw [C89_value rod_ok hH List.length_ofFn rfl (seqT_ok rod 2 1 2) (rateEval_computes dt)
      (fun k U U' Z Z' X X' hk hU hZ hX => by
        rw [hU 1 0 (by decide) (by decide), hZ 0 (by decide)]) Post.none]
    congr 1
    unfold Post.none
    dsimp only
    rw [show rod.domains.length = 1 from rfl, sum_range_one, sum_range_one, show rod.size (rod.part 0) = 1 from rfl,
      sum_range_one, show gcell (rod.part 0) 0 = 0 by decide]
    have n0 : cellNode rod.npc rod.c2n 0 0 = 0 := by decide
    have d0 : cellDof rod.npc rod.ndof rod.c2n 0 0 = 0 := by decide
    unfold cellS FeModel.cellZ stateAt
    rw [n0, d0, at0_ofFn]
    simp [rodHist, at0, coord]
    rw [dif_pos (by decide)]
    rfl
  · obtain ⟨g, hl, hq, hgr⟩ := gradT_ok rod_ok hH (z := [1, 1]) (x := [0, 1]) rfl rfl (d := 1) (dt := dt)
      (ev := rateEval fun k => rod.size (rod.part k)) Post.none (pick := lateRate)
      (steps := [1]) (sc := seqT rod 2) (mkS := fun _ => constOf) (mkZ := seedOf) (mkX := constOf)
      (fun f t _ ht => by rw [List.mem_singleton.1 ht]; unfold lateRate; split_ifs <;> decide)
      (seqT_ok rod 2 1 2) (r := fun k i => (List.range (rod.size (rod.part k))).map fun c =>
        (gather seedOf rod.npc 1 rod.c2n (domCells rod k) [1, 1]).e c 0 *
          (gatherF rod 2 (fun _ => constOf) k
            (fun f => stateAt (rodHist u0 u1 [0, 0] [1, 0]) f (lateRate f 1)) 1).e c 0)
      (fun k i hi hk => by
        have hi : i < 1 := hi
        interval_cases i
        rfl) (by simp)
    refine ⟨g, ?_, fun q => ?_⟩
    · unfold transGradZ
      rw [stepsDown_ok hH, Res.ok_bind]
      exact hgr
    · rw [hq q]
      refine sum_eq_zero fun k hk => sum_eq_zero fun t ht => ?_
      have hk : k < 1 := mem_range.1 hk
      have ht : t < 1 := mem_range.1 ht
      interval_cases k
      interval_cases t
      have : ∀ c, c < rod.size (rod.part 0) → ∀ l, (at0 ((List.range (rod.size (rod.part 0))).map fun c =>
          (gather seedOf rod.npc 1 rod.c2n (domCells rod 0) [1, 1]).e c 0 *
          (gatherF rod 2 (fun _ => constOf) 0
            (fun f => stateAt (rodHist u0 u1 [0, 0] [1, 0]) f (lateRate f 1)) 1).e c 0) c).dx l = 0 := by
        intro c hc l
        rw [at0_eq (by simpa using hc), List.getElem_map, List.getElem_range,
          gatherF_e (by decide) _ _ (by decide) hc (by decide)]
        have hc : c < 1 := hc
        interval_cases c
        have : cellF rod (fun f => stateAt (rodHist u0 u1 [0, 0] [1, 0]) f (lateRate f 1)) (gcell (rod.part 0) 0) 1 0
            = 0 := by
          rw [show gcell (rod.part 0) 0 = 0 by decide]
          have d0 : cellDof rod.npc rod.ndof rod.c2n 0 0 = 0 := by decide
          unfold cellF cellS stateAt
          rw [d0]
          simp [rodHist, lateRate, at0]
        rw [this]
        show _ * (0 : ℝ) + _ * (0 : ℝ) = 0
        ring
      unfold scatteredVec
      refine sum_eq_zero fun c hc => sum_eq_zero fun l _ => ?_
      rw [ite_eq_right_iff]
      intro _
      exact this c (mem_range.1 hc) l
  · exact C89_gradient_z rod_ok hH (fun _ _ _ _ _ _ _ _ _ h => h) (seqT_ok rod 2 1 2) rfl (rateEval_tracks dt rodZ)
      (fun _ _ _ _ _ => trivial) (seqT_ok rod 2 1 2) fun v _ => Post.none_ok _ v

/-! ## The temperature average of the rod of length four -/

theorem rod_average (a b : ℝ) : averageForm abs (unitRod 0) (cellS rod [a, b] 0) (rod.cellZ [1, 1] 0)
    (rod.cellX [0, 4] 0) = 2 * (a + b) := by
  have e : detForm 1 (rod.cellX [0, 4] 0) = -4 := by
    norm_num [rod, detForm, edge, FeModel.cellX, cellNode, FeModel.npc, at0, atN]
  have d0 : cellDof rod.npc rod.ndof rod.c2n 0 0 = 0 := by decide
  have d1 : cellDof rod.npc rod.ndof rod.c2n 0 1 = 1 := by decide
  unfold averageForm
  rw [show (unitRod 0).d = 1 from rfl, rod_density, e, show (unitRod 0).pen = id from rfl]
  simp only [sum_range_succ, sum_range_zero, cellS, d0, d1]
  norm_num [unitRod, exThermal, at0]
  ring

theorem rod_average_value (u0 : List ℝ) (h0 : u0.length = 2) (a b : ℝ) (v0 v1 : List ℝ) (hv0 : v0.length = 2)
    (hv1 : v1.length = 2) (dt : ℝ) :
    transValue rod 2 (ofState (temperatureAverage abs unitRod fun k => List.range (rod.size (rod.part k)))) Post.none
      (seqT rod 2) (rodHist u0 [a, b] v0 v1) [1, 1] [0, 4] dt = .ok (2 * (a + b)) := by
  rw [C89_value rod_ok (rodHist_ok h0 rfl hv0 hv1) rfl rfl (seqT_ok rod 2 1 2)
    (ofState_computes (by decide) (average_computes unitRod_ok (fun _ => IsSchedule.range _) dt))
    (ofState_formLocal (by decide) (average_local unitRod_ok)) Post.none]
  congr 1
  unfold Post.none
  dsimp only
  rw [show rod.domains.length = 1 from rfl, sum_range_one, sum_range_one, show rod.size (rod.part 0) = 1 from rfl,
    sum_range_one, show gcell (rod.part 0) 0 = 0 by decide]
  exact rod_average a b

/-- **C89 is false**: the temperature average of a rod of length four at the temperature one is four. -/
theorem C89_average_false (dt : ℝ) :
    transValue rod 2 (ofState (temperatureAverage abs unitRod fun k => List.range (rod.size (rod.part k)))) Post.none
      (seqT rod 2) (rodHist [1, 1] [1, 1] [0, 0] [0, 0]) [1, 1] [0, 4] dt = .ok 4 := by
  rw [rod_average_value [1, 1] rfl 1 1 [0, 0] [0, 0] rfl rfl dt]
  norm_num

theorem unitRod_good : ∀ c, c < rod.nc → thermGood rod unitRod (fun _ => id) (rod.cellZ [1, 1] c)
    (rod.cellX [0, 4] c) := by
  intro c hc
  have hc : c < 1 := hc
  interval_cases c
  refine ⟨?_, fun k _ => penOk_id _⟩
  show detForm 1 (rod.cellX [0, 4] 0) ≠ 0
  norm_num [rod, detForm, edge, FeModel.cellX, cellNode, FeModel.npc, at0, atN]

/-- **C89 is false** at the first step: the value does not depend on the state of the first step, and the gradient
reported for it is not zero. -/
theorem C89_first_step_false (dt : ℝ) :
    (∀ u : List ℝ, u.length = 2 →
      transValue rod 2 (ofState (temperatureAverage abs unitRod fun k => List.range (rod.size (rod.part k)))) Post.none
        (seqT rod 2) (rodHist u [1, 1] [0, 0] [0, 0]) [1, 1] [0, 4] dt = .ok 4) ∧
    ∃ g, transGradField rod 2 0 (ofState (temperatureAverage Fad.fabs (fun k => (unitRod k).lift id)
        fun k => List.range (rod.size (rod.part k)))) Post.none (seqT rod 2) (rodHist [0, 1] [1, 1] [0, 0] [0, 0])
        [1, 1] [0, 4] 0 dt = .ok g ∧ at0 g 0 + at0 g 1 = 4 := by
  refine ⟨fun u hu => ?_, ?_⟩
  · rw [rod_average_value u hu 1 1 [0, 0] [0, 0] rfl rfl dt]
    norm_num
  · obtain ⟨g, e, hl, hd⟩ := C89_first_gradient rod_ok (rodHist_ok (u0 := [0, 1]) (u1 := [1, 1]) (v0 := [0, 0])
      (v1 := [0, 0]) rfl rfl rfl rfl) (good := fun _ Z X => thermGood rod unitRod (fun _ => id) Z X)
      (ofState_local (by decide) (good_local unitRod_ok))
      (ofState_computes (by decide) (average_computes unitRod_ok (fun _ => IsSchedule.range _) dt))
      (ofState_formLocal (by decide) (average_local unitRod_ok)) (u := rodU) (z := [1, 1]) (x := [0, 4]) rfl rfl
      (f := 0) rfl
      (ofState_tracks (by decide) (average_tracks unitRod_ok (penF := fun _ => id) (fun _ => IsSchedule.range _)
        (fun _ => IsSchedule.range _) dt rodU))
      unitRod_good (seqT_ok rod 2 1 2)
    refine ⟨g, e, ?_⟩
    have hf : (fun y : Fin (rod.nn * rod.ndof) → ℝ => ∑ k ∈ range rod.domains.length,
        ∑ c ∈ range (rod.size (rod.part k)), averageForm abs (unitRod k)
          (cellS rod (if 0 = 0 then List.ofFn y else stateAt (rodHist [0, 1] [1, 1] [0, 0] [0, 0]) 0 0)
            (gcell (rod.part k) c)) (rod.cellZ [1, 1] (gcell (rod.part k) c))
          (rod.cellX [0, 4] (gcell (rod.part k) c))) = fun y => 2 * (y dof0 + y dof1) := by
      funext y
      rw [show rod.domains.length = 1 from rfl, sum_range_one, show rod.size (rod.part 0) = 1 from rfl,
        sum_range_one, show gcell (rod.part 0) 0 = 0 by decide, if_pos rfl]
      exact rod_average (y dof0) (y dof1)
    rw [hf] at hd
    have hd2 : HasFDerivAt (fun y : Fin (rod.nn * rod.ndof) → ℝ => 2 * (y dof0 + y dof1))
        ((2 : ℝ) • (ContinuousLinearMap.proj (R := ℝ) (φ := fun _ => ℝ) dof0 +
          ContinuousLinearMap.proj (R := ℝ) (φ := fun _ => ℝ) dof1)) rodU :=
      ((hasFDerivAt_apply dof0 rodU).add (hasFDerivAt_apply dof1 rodU)).const_mul 2
    have := congrArg (fun L : (Fin (rod.nn * rod.ndof) → ℝ) →L[ℝ] ℝ => L fun _ => 1) (hd.unique hd2)
    rw [lin_apply] at this
    have e2 : ∑ j : Fin (rod.nn * rod.ndof), at0 g j * 1 = at0 g 0 + at0 g 1 := by
      show ∑ j : Fin 2, at0 g j * 1 = at0 g 0 + at0 g 1
      rw [Fin.sum_univ_two]
      simp
    rw [e2] at this
    rw [this]
    show (2 : ℝ) * (1 + 1) = 4
    norm_num

/-- A case of the theorems on gradients: a history of the rod of length four meets their hypotheses, with the state of
the last step as variable. -/
example : rod.Ok ∧ ThermOk rod unitRod ∧ HistOk rod 2 (rodHist [0, 1] [0, 4] [0, 0] [1, 1]) 2 ∧
    stateAt (rodHist [0, 1] [0, 4] [0, 0] [1, 1]) 0 1 = [0, 4] ∧
    (∀ c, c < rod.nc → thermGood rod unitRod (fun _ => id) (rod.cellZ [1, 1] c) (rod.cellX [0, 4] c)) :=
  ⟨rod_ok, unitRod_ok, rodHist_ok rfl rfl rfl rfl, rfl, unitRod_good⟩

end Plato.Trans
