import Verif.Stab.Props
import Verif.Mech.Element

/-!
# C109: examples and refutations
-/

namespace Plato.Stab
open Finset Plato Plato.Mech Plato.Thermal Plato.Plast Plato.Material

/-- Stiffness of Hooke's law. -/
noncomputable def hookeV (d : Nat) (lam mu : ℝ) : V2 ℝ := ⟨voigt d, voigt d, fun i j =>
  if i < d then (if j < d then lam else 0) + (if i = j then 2 * mu else 0) else if i = j then mu else 0⟩

theorem hookeV_stiff {d : Nat} (lam mu : ℝ) : IsStiffness d (hookeV d lam mu) where
  rows := rfl
  cols := rfl
  symm i j _ _ := by
    unfold hookeV
    by_cases h1 : i < d <;> by_cases h2 : j < d <;> by_cases h3 : i = j <;>
      simp [h1, h2, h3, eq_comm, Ne.symm] <;> omega

theorem hookeV_hooke {d : Nat} (hd : d = 2 ∨ d = 3) (lam mu : ℝ) : Hooke d lam mu (hookeV d lam mu) := by
  intro e t ht
  rcases hd with rfl | rfl
  · change t < 3 at ht
    unfold stress hookeV
    interval_cases t <;> simp [voigt, sum_range_succ] <;> ring
  · change t < 6 at ht
    unfold stress hookeV
    interval_cases t <;> simp [voigt, sum_range_succ] <;> ring

/-- One cell with Lamé constants one half, pressure scaling one, no penalty and a reference strain. -/
noncomputable def cellOf (d : Nat) (e0 : Nat → ℝ) : Stab ℝ :=
  ⟨d, (hookeV d (1 / 2) (1 / 2)).e, e0, 1, fun _ => 1, 1, List.replicate (d + 1) (1 / (d + 1)), []⟩

/-- The same cell for plain elastostatics. -/
noncomputable def plainOf (d : Nat) (e0 : Nat → ℝ) : Elastostatic ℝ :=
  ⟨d, (hookeV d (1 / 2) (1 / 2)).e, e0, fun _ => 1, 1, none, []⟩

/-- Unit simplex: node `n` at the end of axis `n`, the last one in the origin. -/
def simplex (d : Nat) : V3 ℝ := ⟨1, d + 1, d, fun _ n k => if n = k then 1 else 0⟩

/-- Stretch by one along the first axis and pressures `p`. -/
def stretch (d : Nat) (p : Nat → ℝ) : V2 ℝ := ⟨1, (d + 1) * (d + 1), fun _ l =>
  if l % (d + 1) = d then p (l / (d + 1)) else if l = 0 then 1 else 0⟩

/-- Nothing. -/
def nil (n m : Nat) : V2 ℝ := ⟨n, m, fun _ _ => 0⟩

theorem cell_ws {d : Nat} (e0 : Nat → ℝ) (p : Nat → ℝ) :
    SWs (cellOf d e0) [0].length (stretch d p) (nil 1 ((d + 1) * d)) (nil 1 (d + 1)) (simplex d) :=
  ⟨rfl, le_rfl, rfl, le_rfl, rfl, le_rfl, rfl, rfl, rfl⟩

theorem one_sched : ∀ k : Nat, IsSchedule ((fun _ => [0]) k) [0].length := fun _ => List.Perm.refl _

theorem cell_basis (d : Nat) (e0 : Nat → ℝ) : (cellOf d e0).basis.length = (cellOf d e0).d + 1 := by
  simp [cellOf]

theorem cell_of (d : Nat) (e0 : Nat → ℝ) : Of (cellOf d e0) (hookeV d (1 / 2) (1 / 2)) := fun _ _ _ _ => rfl

/-- Gradients of the basis functions of the unit triangle. -/
theorem tri_grad : gradForm 2 ((simplex 2).e 0) 0 0 = 1 ∧ gradForm 2 ((simplex 2).e 0) 0 1 = 0 ∧
    gradForm 2 ((simplex 2).e 0) 1 0 = 0 ∧ gradForm 2 ((simplex 2).e 0) 1 1 = 1 ∧
    gradForm 2 ((simplex 2).e 0) 2 0 = -1 ∧ gradForm 2 ((simplex 2).e 0) 2 1 = -1 ∧ detForm 2 ((simplex 2).e 0) = 1 := by
  refine ⟨?_, ?_, ?_, ?_, ?_, ?_, ?_⟩ <;>
    norm_num [gradForm, cofForm, detForm, edge, simplex, sum_range_succ]

theorem tri_strain (e0 p : Nat → ℝ) :
    (cellOf 2 e0).strainOf ((stretch 2 p).e 0) ((simplex 2).e 0) 0 = 1 ∧
    (cellOf 2 e0).strainOf ((stretch 2 p).e 0) ((simplex 2).e 0) 1 = 0 ∧
    (cellOf 2 e0).strainOf ((stretch 2 p).e 0) ((simplex 2).e 0) 2 = 0 := by
  obtain ⟨g1, g2, g3, g4, g5, g6, -⟩ := tri_grad
  unfold Stab.strainOf voigtStrain fieldGrad
  simp [cellOf, voigtPair, sum_range_succ, stretch, g1, g2, g3, g4, g5, g6]

theorem tri_div (e0 p : Nat → ℝ) : (cellOf 2 e0).divOf ((stretch 2 p).e 0) ((simplex 2).e 0) = 1 := by
  obtain ⟨h1, h2, -⟩ := tri_strain e0 p
  unfold Stab.divOf
  rw [show (cellOf 2 e0).d = 2 from rfl, sum_range_succ, sum_range_succ, sum_range_zero, h1, h2]
  norm_num

theorem tri_press (e0 : Nat → ℝ) : (cellOf 2 e0).pressOf ((stretch 2 fun _ => 1).e 0) = 1 := by
  unfold Stab.pressOf interp
  norm_num [cellOf, sum_range_succ, stretch, at0]

/-- **C109 is false in the plane**: a stretched triangle of an isotropic material whose volume equation holds (pressure
equal to the bulk modulus that the residual uses times the change of volume, projected gradient equal to the gradient).
The forces of the residual are not those of Hooke's law. -/
theorem C109_plane_false : ∃ (P : Stab ℝ) (C : V2 ℝ) (lam mu : ℝ) (state node control : V2 ℝ) (config : V3 ℝ),
    P.d = 2 ∧ 0 < lam ∧ 0 < mu ∧ IsStiffness 2 C ∧ Of P C ∧ Hooke 2 lam mu C ∧
    SWs P 1 state node control config ∧ detForm 2 (config.e 0) ≠ 0 ∧
    P.bulk = .ok (lam + mu) ∧ Balanced P (lam + mu) (state.e 0) (config.e 0) ∧
    Projected P (state.e 0) (node.e 0) (config.e 0) ∧
    ∀ (fabs pow23 : ℝ → ℝ) (init : Nat → Nat → Nat), fabs 1 = 1 →
      ∃ y, P.evaluate fabs pow23 init (fun _ => [0]) [0] state node control config (nil 1 9) = .ok y ∧
        y.e 0 0 = 11 / 6 ∧
        P.volOf fabs (config.e 0) * P.penOf (control.e 0) *
          nodalForce 2 (stress C (P.strainOf (state.e 0) (config.e 0))) (gradForm 2 (config.e 0)) 0 0 = 3 / 2 := by
  obtain ⟨g1, g2, g3, g4, g5, g6, g7⟩ := tri_grad
  obtain ⟨e1, e2, e3⟩ := tri_strain (fun _ => 0) fun _ => 1
  have hbal : Balanced (cellOf 2 fun _ => 0) (1 / 2 + 1 / 2) ((stretch 2 fun _ => 1).e 0) ((simplex 2).e 0) := by
    unfold Balanced
    rw [tri_press, tri_div]
    norm_num
  refine ⟨cellOf 2 fun _ => 0, hookeV 2 (1 / 2) (1 / 2), 1 / 2, 1 / 2, stretch 2 fun _ => 1, nil 1 6, nil 1 3, simplex 2,
    rfl, by norm_num, by norm_num, hookeV_stiff _ _, cell_of 2 _, hookeV_hooke (.inl rfl) _ _, cell_ws _ _,
    by rw [g7]; norm_num, ?_, hbal, ?_, ?_⟩
  · have := (C109_moduli (cellOf 2 fun _ => 0) (.inl rfl) (hookeV_stiff _ _) (cell_of 2 _) (hookeV_hooke (.inl rfl) _ _)).1
    rw [this]
    norm_num [cellOf]
  · intro k hk
    have hk : k < 2 := hk
    unfold Stab.projOf Stab.pgradOf interp scalarField
    interval_cases k <;> simp [cellOf, nil, stretch, sum_range_succ, g1, g2, g3, g4, g5, g6]
  · intro fabs pow23 init hf
    have hv : (cellOf 2 fun _ => 0).volOf fabs ((simplex 2).e 0) = 1 := by
      unfold Stab.volOf
      rw [show (cellOf 2 fun _ => 0).d = 2 from rfl, g7, hf]
      norm_num [cellOf]
    have hn : nodalForce 2 (stress (hookeV 2 (1 / 2) (1 / 2)) ((cellOf 2 fun _ => 0).strainOf
        ((stretch 2 fun _ => 1).e 0) ((simplex 2).e 0))) (gradForm 2 ((simplex 2).e 0)) 0 0 = 3 / 2 := by
      unfold nodalForce
      rw [sum_range_succ, sum_range_succ, sum_range_zero, g1, g2,
        hookeV_hooke (.inl rfl) _ _ _ _ (by decide), sum_range_succ, sum_range_succ, sum_range_zero]
      simp only [voigtIndex, if_true]
      rw [e1, e2]
      norm_num
    obtain ⟨-, y, ey, hy⟩ := C109_plane_partial fabs pow23 (cell_basis 2 _) (cell_ws (fun _ => 0) fun _ => 1)
      (by simp [cellOf]) one_sched init (result := nil 1 9) le_rfl le_rfl rfl (hookeV_stiff _ _) (cell_of 2 _)
      (hookeV_hooke (.inl rfl) _ _)
    refine ⟨y, ey, ?_, ?_⟩
    · have := hy 0 (by decide) hbal 0 0 (by decide) (by decide)
      rw [hv, hn, tri_div, g1] at this
      rw [show y.e 0 0 = y.e 0 (0 * 3 + 0) from rfl, this]
      norm_num [nil, Stab.penOf, cellOf, Stab.loadRow]
    · rw [hv, hn]
      norm_num [Stab.penOf, cellOf]

/-- **C109 is false with a reference strain**: the triangle is stretched by its reference strain.  Plain elastostatics
finds no forces; the residual with pressure has forces on the displacements, whatever the pressures. -/
theorem C109_reference_false : ∃ (P : Stab ℝ) (E : Elastostatic ℝ) (u : V2 ℝ) (state : (Nat → ℝ) → V2 ℝ)
    (node control : V2 ℝ) (config : V3 ℝ),
    P.d = E.d ∧ P.stiff = E.stiff ∧ P.refStrain = E.refStrain ∧ P.pen = E.pen ∧ P.cubWeight = E.cubWeight ∧
    P.bodyLoads = [] ∧ E.bodyLoads = [] ∧ E.forcing = none ∧ detForm P.d (config.e 0) ≠ 0 ∧
    (∀ p, SWs P 1 (state p) node control config) ∧
    (∀ p n i, n < P.d + 1 → i < P.d → (state p).e 0 (n * (P.d + 1) + i) = u.e 0 (n * P.d + i)) ∧
    (∀ p n, n < P.d + 1 → (state p).e 0 (n * (P.d + 1) + P.d) = p n) ∧
    ∀ (fabs pow23 : ℝ → ℝ) (init : Nat → Nat → Nat), fabs 1 = 1 →
      (∃ y, E.evaluate fabs init (fun _ => [0]) [0] u control config (nil 1 6) = .ok y ∧ ∀ l, y.e 0 l = 0) ∧
      ∀ p, ∃ y, P.evaluate fabs pow23 init (fun _ => [0]) [0] (state p) node control config (nil 1 9) = .ok y ∧
        ∃ n i, n < 3 ∧ i < 2 ∧ y.e 0 (n * 3 + i) ≠ 0 := by
  obtain ⟨g1, g2, g3, g4, g5, g6, g7⟩ := tri_grad
  refine ⟨cellOf 2 (fun t => if t = 0 then 1 else 0), plainOf 2 (fun t => if t = 0 then 1 else 0),
    ⟨1, 6, fun _ l => if l = 0 then 1 else 0⟩, stretch 2, nil 1 6, nil 1 3, simplex 2, rfl, rfl, rfl, rfl, rfl, rfl, rfl,
    rfl, by rw [show (cellOf 2 _).d = 2 from rfl, g7]; norm_num, cell_ws _, ?_, ?_, ?_⟩
  · intro p n i hn hi
    have hn : n < 3 := hn
    have hi : i < 2 := hi
    interval_cases n <;> interval_cases i <;> simp [cellOf, stretch]
  · intro p n hn
    have hn : n < 3 := hn
    interval_cases n <;> simp [cellOf, stretch]
  · intro fabs pow23 init hf
    constructor
    · refine ⟨_, Plato.Mech.evaluate_ok fabs (P := plainOf 2 _) (.inr (.inl rfl)) (cells := [0])
        ⟨le_rfl, le_rfl, le_rfl, le_rfl, le_rfl, rfl, rfl⟩ (by simp [plainOf]) one_sched init (result := nil 1 6) le_rfl
        le_rfl, fun l => ?_⟩
      have hz : ∀ s, s < 3 → (plainOf 2 fun t => if t = 0 then 1 else 0).strainForm
          (fun l => if l = 0 then 1 else 0) ((simplex 2).e 0) s = if s = 0 then 1 else 0 := by
        intro s hs
        unfold Elastostatic.strainForm voigtStrain fieldGrad
        interval_cases s <;> simp [plainOf, voigtPair, sum_range_succ, g1, g2, g3, g4, g5, g6]
      have hst : ∀ t, (plainOf 2 fun t => if t = 0 then 1 else 0).solidStress
          (fun l => if l = 0 then 1 else 0) ((simplex 2).e 0) t = 0 := by
        intro t
        unfold Elastostatic.solidStress
        refine sum_eq_zero fun s hs => ?_
        rw [hz s (mem_range.1 hs)]
        simp [plainOf]
      simp only [addRows, List.length_singleton, Nat.zero_lt_one, if_true, nil, Pi.add_apply]
      unfold Elastostatic.forceRow nodalForce Elastostatic.stressForm
      simp only [hst]
      simp [Elastostatic.forcingForm, plainOf, Elastostatic.loadRow]
    · intro p
      obtain ⟨e1, e2, e3⟩ := tri_strain (fun t => if t = 0 then 1 else 0) p
      refine ⟨_, evaluate_ok fabs pow23 (.inl rfl) (cell_basis 2 _) (cell_ws _ p) (by simp [cellOf]) one_sched init
        (result := nil 1 9) le_rfl le_rfl, ?_⟩
      set P := cellOf 2 (fun t => if t = 0 then 1 else 0) with hP
      have hv : P.volOf fabs ((simplex 2).e 0) = 1 := by
        unfold Stab.volOf
        rw [show P.d = 2 from rfl, g7, hf]
        norm_num [hP, cellOf]
      have hp : ∀ Z, P.penOf Z = 1 := fun _ => rfl
      have m1 := solidRow_mom P fabs pow23 ((stretch 2 p).e 0) ((nil 1 6).e 0) ((nil 1 3).e 0) ((simplex 2).e 0)
        (n := 0) (i := 0) (by decide) (by decide)
      have m2 := solidRow_mom P fabs pow23 ((stretch 2 p).e 0) ((nil 1 6).e 0) ((nil 1 3).e 0) ((simplex 2).e 0)
        (n := 1) (i := 1) (by decide) (by decide)
      have t1 : P.totalOf ((stretch 2 p).e 0) ((simplex 2).e 0) 0 - P.totalOf ((stretch 2 p).e 0) ((simplex 2).e 0) 1 = 1 := by
        unfold Stab.totalOf Stab.devOf
        rw [elasticOf_hooke (.inl rfl) (hookeV_stiff _ _) (cell_of 2 _) (hookeV_hooke (.inl rfl) _ _) _ _
            (show 0 < numVoigt 2 by decide),
          elasticOf_hooke (.inl rfl) (hookeV_stiff _ _) (cell_of 2 _) (hookeV_hooke (.inl rfl) _ _) _ _
            (show 1 < numVoigt 2 by decide), e1, e2]
        simp only [show P.d = 2 from rfl, show (cellOf 2 fun t => if t = 0 then (1 : ℝ) else 0).d = 2 from rfl]
        norm_num
      rw [show P.d = 2 from rfl, hv, hp, nodalForce, sum_range_succ, sum_range_succ, sum_range_zero, g1, g2] at m1
      rw [show P.d = 2 from rfl, hv, hp, nodalForce, sum_range_succ, sum_range_succ, sum_range_zero, g3, g4] at m2
      simp only [voigtIndex, if_true] at m1 m2
      by_contra hne
      push Not at hne
      have a1 := hne 0 0 (by decide) (by decide)
      have a2 := hne 1 1 (by decide) (by decide)
      have l0 : ∀ c gc Z, P.loadRow c gc Z = 0 := fun _ _ _ => rfl
      simp only [addRows, List.length_singleton, Nat.zero_lt_one, if_true, Pi.add_apply, l0] at a1 a2
      rw [show (0 * 3 + 0 : Nat) = 0 * (2 + 1) + 0 from rfl, m1] at a1
      rw [show (1 * 3 + 1 : Nat) = 1 * (2 + 1) + 1 from rfl, m2] at a2
      simp [nil] at a1 a2
      linarith

/-- Hypotheses of `C109_space` and `C109_patch`: the unit tetrahedron. -/
example (p : Nat → ℝ) : (cellOf 3 fun _ => 0).d = 3 ∧ IsStiffness 3 (hookeV 3 (1 / 2) (1 / 2)) ∧
    Of (cellOf 3 fun _ => 0) (hookeV 3 (1 / 2) (1 / 2)) ∧ Hooke 3 (1 / 2) (1 / 2) (hookeV 3 (1 / 2) (1 / 2)) ∧
    (cellOf 3 fun _ => 0).basis.length = 4 ∧ ∑ n ∈ range 4, at0 (cellOf 3 fun _ => 0).basis n = 1 ∧
    SWs (cellOf 3 fun _ => 0) [0].length (stretch 3 p) (nil 1 12) (nil 1 4) (simplex 3) ∧
    detForm 3 ((simplex 3).e 0) ≠ 0 ∧ ((1 : ℝ) / 2 + 2 * (1 / 2) / 3 ≠ 0) :=
  ⟨rfl, hookeV_stiff _ _, cell_of 3 _, hookeV_hooke (.inr rfl) _ _, rfl, by norm_num [cellOf, sum_range_succ, at0],
    cell_ws _ _, by norm_num [detForm, edge, simplex, detj3], by norm_num⟩

/-- A state of the tetrahedron as in `C109_patch`: stretch along the first axis, pressure `5/6`. -/
example : (∀ n i, n < 4 → i < 3 → (stretch 3 fun _ => 5 / 6).e 0 (n * 4 + i) =
      0 + ∑ j ∈ range 3, (if i = 0 ∧ j = 0 then (1 : ℝ) else 0) * (simplex 3).e 0 n j) ∧
    (∀ n, n < 4 → (stretch 3 fun _ => 5 / 6).e 0 (n * 4 + 3) = 5 / 6) ∧
    5 / 6 * (cellOf 3 fun _ => 0).kappa = ((1 : ℝ) / 2 + 2 * (1 / 2) / 3) * (1 + 0 + 0) := by
  refine ⟨fun n i hn hi => ?_, fun n hn => ?_, by norm_num [cellOf]⟩
  · interval_cases n <;> interval_cases i <;> simp [stretch, simplex, sum_range_succ]
  · interval_cases n <;> simp [stretch]

end Plato.Stab
