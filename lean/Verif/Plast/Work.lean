import Verif.Plast.Eval
import Verif.Em.Props

/-!
# C71: virtual work of the residual of plasticity
-/

namespace Plato.Plast
open Finset Plato Plato.Mech Plato.Thermal Plato.J2 Plato.Dyn
open Plato.Tm (fluxRow heatRow)

/-! ## Rows and virtual fields -/

section Rows
variable {R : Type} [CommRing R]

theorem fluxRow_pair {d ndof off : Nat} (ho : off < ndof) (v : R) (q : Nat → R) (G : Nat → Nat → R) (W : Nat → R) :
    ∑ l ∈ range ((d + 1) * ndof), fluxRow d ndof off v q G l * W l =
      v * ∑ k ∈ range d, q k * scalarField d (fun n => W (n * ndof + off)) G k := by
  unfold fluxRow scalarField
  simp only [Finset.sum_apply, sum_mul, mul_sum]
  rw [sum_comm, sum_comm (s := range d)]
  refine sum_congr rfl fun n hn => ?_
  rw [single_pairing (dof_lt (mem_range.1 hn) ho), sum_mul]
  exact sum_congr rfl fun k _ => by ring

theorem heatRow_pair {d ndof off : Nat} (ho : off < ndof) (B : Nat → R) (v f : R) (W : Nat → R) :
    ∑ l ∈ range ((d + 1) * ndof), heatRow d ndof off B v f l * W l =
      v * (f * interp (d + 1) B fun n => W (ndof * n + off)) := by
  unfold heatRow interp
  simp only [Finset.sum_apply, sum_mul, mul_sum]
  rw [sum_comm]
  refine sum_congr rfl fun n hn => ?_
  have := dof_lt (d := d) (ndof := ndof) (i := off) (mem_range.1 hn) ho
  rw [single_pairing (by rw [Nat.mul_comm ndof n]; exact this)]
  ring

theorem pressRow_pair {d ndof : Nat} (hd : d ≤ ndof) (v p : R) (G : Nat → Nat → R) (W : Nat → R) :
    ∑ l ∈ range ((d + 1) * ndof), pressRow d ndof v p G l * W l =
      v * (p * ∑ k ∈ range d, fieldGrad d (fun n i => W (n * ndof + i)) G k k) := by
  unfold pressRow fieldGrad
  simp only [Finset.sum_apply, sum_mul, mul_sum]
  rw [sum_comm]
  refine sum_congr rfl fun k hk => ?_
  rw [sum_comm]
  refine sum_congr rfl fun n hn => ?_
  rw [single_pairing (by rw [Nat.add_zero]; exact dof_lt (mem_range.1 hn) ((mem_range.1 hk).trans_le hd)), Nat.add_zero]
  ring

theorem loads_pair {Ls : List (BodyLoad ℝ)} {d ndof : Nat} (hL : ∀ L ∈ Ls, L.dof < ndof) (c gc : Nat) (Z W : Nat → ℝ)
    (a : ℝ) : ∑ l ∈ range ((d + 1) * ndof), (Ls.map fun L => L.row d ndof c gc Z (-1 * a)).sum l * W l =
      -a * (Ls.map fun L => cellLoad L d ndof c gc Z W).sum := by
  have e : ∀ l, (Ls.map fun L => L.row d ndof c gc Z (-1 * a)).sum l = a * (Ls.map fun L => L.row d ndof c gc Z (-1)).sum l := by
    intro l
    clear hL
    induction Ls with
    | nil => simp
    | cons L Ls ih =>
      simp only [List.map_cons, List.sum_cons, Pi.add_apply, mul_add, ih]
      congr 1
      unfold BodyLoad.row
      simp only [Finset.sum_apply, mul_sum]
      refine sum_congr rfl fun p _ => sum_congr rfl fun n _ => ?_
      by_cases h : l = n * ndof + L.dof
      · subst h; simp only [Pi.single_eq_same]; ring
      · simp only [Pi.single_eq_of_ne h, mul_zero]
  rw [sum_congr rfl fun l _ => by rw [e l, mul_assoc], ← mul_sum, loads_work hL]
  ring

end Rows

/-! ## Specification -/

/-- Deviatoric stress of a cell: strain without thermal and plastic part, penalised shear modulus. -/
noncomputable def Plast.stressDev (P : Plast ℝ) (U C Z : Nat → ℝ) (X : Nat → Nat → ℝ) : Tensor :=
  (2 * (P.penOf Z * P.mat.shear)) • deviator (P.mat.mechStrain U X - (point P.d C).ep)

/-- Work in a cell on the virtual unknowns `W`: deviatoric stress on virtual strain; pressure on virtual change
of volume; on the virtual pressure what the change of volume exceeds that of temperature and pressure; less the
stabilisation; heat flux on the virtual temperature. -/
noncomputable def Plast.cellWork (P : Plast ℝ) (pow23 : ℝ → ℝ) (U C N Z : Nat → ℝ) (X : Nat → Nat → ℝ) (W : Nat → ℝ) : ℝ :=
  let V := |detForm P.d X| * P.cubWeight
  let p := P.kappa * P.valueOf P.poff U
  V * (dot (P.stressDev U C Z X) (smallStrain P.d P.ndof W X)
    + p * (smallStrain P.d P.ndof W X).trace
    + P.kappa * P.valueOf P.poff W * ((smallStrain P.d P.ndof U X).trace
        - (if P.mat.thermal then 3 * P.mat.alpha * (P.mat.tscale * P.valueOf P.d U - P.mat.tref) else 0)
        - p / (P.penOf Z * P.bulk))
    - P.penOf Z * (pow23 V / (2 * P.mat.shear)) * ∑ k ∈ range P.d,
        (P.kappa * P.gradOf P.poff U X k - P.projOf N k) * (P.kappa * P.gradOf P.poff W X k)
    + if P.mat.thermal then P.penOf Z * P.cond * P.mat.tscale * ∑ k ∈ range P.d, P.gradOf P.d U X k * P.gradOf P.d W X k
      else 0)

theorem voigt_dot {d ndof : Nat} (hd : d = 2 ∨ d = 3) (σ W : Nat → ℝ) (X : Nat → Nat → ℝ) :
    ∑ t ∈ range (numVoigt d), σ t * voigtStrain d (fun n i => W (n * ndof + i)) (gradForm d X) t =
      dot (stressTensor d σ) (smallStrain d ndof W X) := by
  rcases hd with rfl | rfl <;>
    simp [numVoigt, voigtStrain, voigtPair, dot, stressTensor, smallStrain, Fin.sum_univ_three, sum_range_succ] <;> ring

theorem trace_small {d ndof : Nat} (hd : d = 2 ∨ d = 3) (W : Nat → ℝ) (X : Nat → Nat → ℝ) :
    (smallStrain d ndof W X).trace = ∑ k ∈ range d, fieldGrad d (fun n i => W (n * ndof + i)) (gradForm d X) k k := by
  rcases hd with rfl | rfl <;>
    simp [smallStrain, Matrix.trace, Fin.sum_univ_three, sum_range_succ] <;> ring

theorem divOf_trace {P : Plast ℝ} (hd : P.d = 2 ∨ P.d = 3) (U : Nat → ℝ) (X : Nat → Nat → ℝ) :
    P.divOf U X = (smallStrain P.d P.ndof U X).trace := by
  rw [trace_small hd]
  unfold Plast.divOf
  refine sum_congr rfl fun k hk => ?_
  have hk' := mem_range.1 hk
  unfold J2.total voigtStrain
  have h1 : k < numVoigt P.mat.d := by
    rcases hd with e | e <;> rw [show P.mat.d = _ from e] <;> rw [e] at hk' <;> simp [numVoigt] <;> omega
  have h2 : voigtPair P.mat.d k = (k, k) := by
    rcases hd with e | e <;> rw [show P.mat.d = _ from e] <;> rw [e] at hk' <;> interval_cases k <;> rfl
  rw [if_pos h1, h2, if_pos rfl]

theorem solidRow_work {P : Plast ℝ} (hd : P.d = 2 ∨ P.d = 3) (pow23 : ℝ → ℝ) (U C N Z : Nat → ℝ) (X : Nat → Nat → ℝ)
    (W : Nat → ℝ) :
    ∑ l ∈ range ((P.d + 1) * P.ndof), P.solidRow (fun a => |a|) pow23 U C N Z X l * W l = P.cellWork pow23 U C N Z X W := by
  have e1 := stressRow_work (.inr hd) P.le_ndof (P.volOf (fun a => |a|) X) (P.devOf U C Z X) (gradForm P.d X) W
  rw [voigt_dot hd, show stressTensor P.d (P.devOf U C Z X) = P.stressDev U C Z X by
    unfold Plast.devOf Plast.stressDev Plast.elasticAt
    rw [dev_tensor hd, elastic_tensor hd]] at e1
  have e3 := pressRow_pair (d := P.d) P.le_ndof (P.volOf (fun a => |a|) X) (P.pressOf U) (gradForm P.d X) W
  rw [← trace_small hd] at e3
  have e4 := fluxRow_pair (d := P.d) P.poff_lt (P.volOf (fun a => |a|) X) (fun k => -P.stabOf (fun a => |a|) pow23 U N Z X k)
    (gradForm P.d X) W
  have e5 := heatRow_pair (d := P.d) P.poff_lt (at0 P.mat.basis) (P.volOf (fun a => |a|) X) (P.gapOf U Z X) W
  have e4' : ∑ k ∈ range P.d, -P.stabOf (fun a => |a|) pow23 U N Z X k *
      scalarField P.d (fun n => W (n * P.ndof + P.poff)) (gradForm P.d X) k =
      -(P.penOf Z * (pow23 (P.volOf (fun a => |a|) X) / (2 * P.mat.shear)) * ∑ k ∈ range P.d,
        (P.kappa * P.gradOf P.poff U X k - P.projOf N k) * (P.kappa * P.gradOf P.poff W X k)) := by
    rw [mul_sum, ← sum_neg_distrib]
    refine sum_congr rfl fun k _ => ?_
    unfold Plast.stabOf
    rw [show scalarField P.d (fun n => W (n * P.ndof + P.poff)) (gradForm P.d X) k = P.gradOf P.poff W X k from rfl]
    ring
  rw [e4'] at e4
  have eg : P.gapOf U Z X = P.kappa * ((smallStrain P.d P.ndof U X).trace
        - (if P.mat.thermal then 3 * P.mat.alpha * (P.mat.tscale * P.valueOf P.d U - P.mat.tref) else 0)
        - P.kappa * P.valueOf P.poff U / (P.penOf Z * P.bulk)) := by
    unfold Plast.gapOf Plast.pressOf Plast.thermVolOf
    rw [divOf_trace hd, mul_comm (P.valueOf _ _)]
  rw [show (interp (P.d + 1) (at0 P.mat.basis) fun n => W (P.ndof * n + P.poff)) = P.valueOf P.poff W from rfl] at e5
  have hs : ∀ n, ∑ l ∈ range n, P.solidRow (fun a => |a|) pow23 U C N Z X l * W l = _ := fun n => by
    unfold Plast.solidRow
    simp only [Pi.add_apply, add_mul, sum_add_distrib]
    rfl
  rw [hs, e1, e3, e4, e5, eg]
  unfold Plast.cellWork
  rw [show P.volOf (fun a => |a|) X = |detForm P.d X| * P.cubWeight from rfl]
  dsimp only
  unfold Plast.pressOf
  by_cases hT : P.mat.thermal = true
  · have hdn : P.d < P.ndof := by unfold Plast.ndof J2.ndof; rw [if_pos hT]; exact Nat.lt_add_of_pos_right (by omega)
    have e2 := fluxRow_pair (d := P.d) hdn (P.volOf (fun a => |a|) X) (fun k => -P.fluxOf U Z X k) (gradForm P.d X) W
    have e2' : ∑ k ∈ range P.d, -P.fluxOf U Z X k * scalarField P.d (fun n => W (n * P.ndof + P.d)) (gradForm P.d X) k =
        P.penOf Z * P.cond * P.mat.tscale * ∑ k ∈ range P.d, P.gradOf P.d U X k * P.gradOf P.d W X k := by
      rw [mul_sum]
      refine sum_congr rfl fun k _ => ?_
      unfold Plast.fluxOf
      rw [show scalarField P.d (fun n => W (n * P.ndof + P.d)) (gradForm P.d X) k = P.gradOf P.d W X k from rfl]
      ring
    rw [e2', show P.volOf (fun a => |a|) X = |detForm P.d X| * P.cubWeight from rfl] at e2
    simp only [if_pos hT, e2]
    ring
  · simp only [if_neg hT, Pi.zero_apply, zero_mul, sum_const_zero]
    ring

end Plato.Plast
