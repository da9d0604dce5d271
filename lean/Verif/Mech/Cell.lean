import Mathlib.Algebra.BigOperators.Pi
import Mathlib.Algebra.BigOperators.Ring.Finset
import Mathlib.Tactic.Ring
import Mathlib.Tactic.IntervalCases
import Verif.Blas.Matrix
import Verif.Mech.Model

/-!
# What the functors of the elastostatic element compute, row by row

Closed forms over any commutative ring with a division: they hold for numbers and for automatic
differentiation values.
-/

namespace Plato.Mech
open Finset

variable {R : Type} [CommRing R]

/-! ## Loops that add to one row -/

theorem accum2_row {y : V2 R} {c t : Nat} {f : Nat → R} {a : R} (hc : c < y.d0) (ht : t < y.d1) :
    accum2 (y.row c f) c t a = .ok (y.row c (f + Pi.single t a)) := by
  rw [accum2, vrd2_row hc ht, Res.ok_bind, vwr2_row hc ht]
  congr 2
  funext r
  by_cases h : r = t
  · simp [h]
  · simp [h]

/-- A loop whose iterations each add to the row of `c`. -/
theorem forRange_addrow {y : V2 R} {c n : Nat} {body : Nat → V2 R → Res (V2 R)} (δ : Nat → Nat → R)
    (f : Nat → R)
    (hb : ∀ k f, k < n → body k (y.row c f) = .ok (y.row c (f + δ k))) :
    forRange 0 n (y.row c f) body = .ok (y.row c (f + ∑ k ∈ range n, δ k)) := by
  have := forRange_eq (n := n) (body := body) (fun k => y.row c (f + ∑ k ∈ range k, δ k)) (by
    intro k hk
    rw [hb k _ hk, sum_range_succ, add_assoc])
  simpa using this

/-! ## Specification of Voigt notation -/

/-- The tensor indices of a Voigt component: `xx`; `xx, yy, xy`; `xx, yy, zz, yz, xz, xy`. -/
def voigtPair : Nat → Nat → Nat × Nat
  | 2, 1 => (1, 1)
  | 2, 2 => (0, 1)
  | 3, 1 => (1, 1)
  | 3, 2 => (2, 2)
  | 3, 3 => (1, 2)
  | 3, 4 => (0, 2)
  | 3, 5 => (0, 1)
  | _, _ => (0, 0)

/-- Gradient of a field with nodal values `U`, given the gradients `G` of the basis functions. -/
def fieldGrad (d : Nat) (U G : Nat → Nat → R) (i j : Nat) : R := ∑ n ∈ range (d + 1), U n i * G n j

/-- Voigt component of the symmetric part: normal strain, or engineering shear strain. -/
def voigtStrain (d : Nat) (U G : Nat → Nat → R) (t : Nat) : R :=
  if (voigtPair d t).1 = (voigtPair d t).2 then
    fieldGrad d U G (voigtPair d t).1 (voigtPair d t).1
  else
    fieldGrad d U G (voigtPair d t).1 (voigtPair d t).2 +
      fieldGrad d U G (voigtPair d t).2 (voigtPair d t).1

/-- The Voigt component of a tensor entry. -/
def voigtIndex (d i j : Nat) : Nat := if i = j then i else 3 * (d - 1) - (i + j)

theorem voigtIndex_lt {d i j : Nat} (hd : d = 1 ∨ d = 2 ∨ d = 3) (hi : i < d) (hj : j < d) :
    voigtIndex d i j < numVoigt d := by
  rcases hd with rfl | rfl | rfl <;> interval_cases i <;> interval_cases j <;> decide

/-- The two tables fit together. -/
theorem voigtPair_index {d i j : Nat} (hd : d = 1 ∨ d = 2 ∨ d = 3) (hi : i < d) (hj : j < d) :
    voigtPair d (voigtIndex d i j) = (min i j, max i j) := by
  rcases hd with rfl | rfl | rfl <;> interval_cases i <;> interval_cases j <;> decide

/-! ## Strain -/

/-- nodal values of a cell from a row with `ndof` values per node -/
def nodal (ndof : Nat) (u : V2 R) (c n i : Nat) : R := u.e c (n * ndof + i)

section
variable {d ndof c : Nat} {s u : V2 R} {g : V3 R}

theorem dof_lt {d ndof n i : Nat} (hn : n < d + 1) (hi : i < ndof) : n * ndof + i < (d + 1) * ndof :=
  lt_of_lt_of_le (Nat.add_lt_add_left hi _) (by rw [← Nat.succ_mul]; exact Nat.mul_le_mul_right _ hn)

theorem strainNormal_ok {k t : Nat} (hs : c < s.d0) (ht : t < s.d1) (hu : c < u.d0)
    (hu1 : (d + 1) * ndof ≤ u.d1) (hg : c < g.d0) (hg1 : g.d1 = d + 1) (hg2 : g.d2 = d)
    (hdn : d ≤ ndof) (hk : k < d) (f : Nat → R) :
    strainNormal d ndof c k t u g (s.row c f) =
      .ok (s.row c fun r => if r = t then fieldGrad d (nodal ndof u c) (g.e c) k k else f r) := by
  rw [strainNormal, vwr2_row hs ht, Res.ok_bind,
    forRange_addrow (fun n => Pi.single t (u.e c (n * ndof + k) * g.e c n k)) _ (by
      intro n f hn
      rw [vrd2_ok hu ((dof_lt hn (by omega)).trans_le hu1), vrd3_ok hg (by omega) (by omega)]
      simp only [Res.ok_bind]
      exact accum2_row hs ht)]
  congr 2
  funext r
  by_cases h : r = t
  · subst h; simp [fieldGrad, nodal]
  · simp [h]

theorem strainShear_ok {i j t : Nat} (hs : c < s.d0) (ht : t < s.d1) (hu : c < u.d0)
    (hu1 : (d + 1) * ndof ≤ u.d1) (hg : c < g.d0) (hg1 : g.d1 = d + 1) (hg2 : g.d2 = d)
    (hdn : d ≤ ndof) (hi : i < d) (hj : j < d) (f : Nat → R) :
    strainShear d ndof c i j t u g (s.row c f) =
      .ok (s.row c fun r => if r = t then f r + (fieldGrad d (nodal ndof u c) (g.e c) i j +
        fieldGrad d (nodal ndof u c) (g.e c) j i) else f r) := by
  rw [strainShear,
    forRange_addrow (fun n => Pi.single t (u.e c (n * ndof + j) * g.e c n i +
      u.e c (n * ndof + i) * g.e c n j)) _ (by
      intro n f hn
      rw [vrd2_ok hu ((dof_lt hn (by omega)).trans_le hu1), vrd3_ok hg (by omega) (by omega),
        vrd2_ok hu ((dof_lt hn (by omega)).trans_le hu1), vrd3_ok hg (by omega) (by omega)]
      simp only [Res.ok_bind]
      exact accum2_row hs ht)]
  congr 2
  funext r
  by_cases h : r = t
  · subst h
    simp only [Pi.add_apply, sum_apply, Pi.single_eq_same, if_true, fieldGrad, nodal, sum_add_distrib]
    ring
  · simp [h]

/-- The row of the strain view after `Strain::operator()`: normal components are replaced, shear
components are added to what was there. -/
theorem strain_ok (hd : d = 1 ∨ d = 2 ∨ d = 3) (hs : c < s.d0) (hs1 : s.d1 = numVoigt d)
    (hu : c < u.d0) (hu1 : (d + 1) * ndof ≤ u.d1) (hg : c < g.d0) (hg1 : g.d1 = d + 1) (hg2 : g.d2 = d)
    (hdn : d ≤ ndof) :
    strain d ndof c s u g = .ok (s.row c fun t => if t < numVoigt d then
      (if t < d then 0 else s.e c t) + voigtStrain d (nodal ndof u c) (g.e c) t else s.e c t) := by
  have hN := fun t k ht hk f => strainNormal_ok (s := s) (t := t) (k := k) (d := d) (ndof := ndof)
    hs ht hu hu1 hg hg1 hg2 hdn hk f
  have hS := fun t i j ht hi hj f => strainShear_ok (s := s) (t := t) (i := i) (j := j) (d := d)
    (ndof := ndof) hs ht hu hu1 hg hg1 hg2 hdn hi hj f
  rw [hs1] at hN hS
  unfold strain
  conv_lhs => rw [← V2.row_self s c]
  rcases hd with rfl | rfl | rfl
  all_goals
    simp only [numVoigt, forDown, forRange, forUp, Nat.reduceAdd, Nat.reduceSub, Res.pure_eq, if_true,
      reduceIte, Nat.reduceEqDiff, OfNat.one_ne_ofNat, zero_add, tsub_zero] at hN hS ⊢
    simp (disch := decide) only [hN, hS, Res.ok_bind]
    congr 2
    funext t
    rcases Nat.lt_or_ge t 6 with ht | ht
    · interval_cases t <;> simp [voigtStrain, voigtPair]
    · have : t ≠ 0 ∧ t ≠ 1 ∧ t ≠ 2 ∧ t ≠ 3 ∧ t ≠ 4 ∧ t ≠ 5 ∧ ¬ t < 1 ∧ ¬ t < 3 ∧ ¬ t < 6 := by omega
      simp [this]

end

/-! ## The index table -/

theorem voigtTable_ok {d : Nat} (hd : d = 1 ∨ d = 2 ∨ d = 3) (init : Nat → Nat → Nat) :
    ∃ T : V2 Nat, voigtTable d init = .ok T ∧ T.d0 = d ∧ T.d1 = d ∧
      ∀ i j, i < d → j < d → T.e i j = voigtIndex d i j := by
  rcases hd with rfl | rfl | rfl
  · refine ⟨_, rfl, rfl, rfl, ?_⟩
    intro i j hi hj
    interval_cases i; interval_cases j; rfl
  · refine ⟨_, rfl, rfl, rfl, ?_⟩
    intro i j hi hj
    interval_cases i <;> interval_cases j <;> rfl
  · refine ⟨_, rfl, rfl, rfl, ?_⟩
    intro i j hi hj
    interval_cases i <;> interval_cases j <;> rfl

/-! ## Stress divergence -/

/-- Force at node `n` in direction `i` of a stress in Voigt notation: `Σ_j σ_ij ∂_j N_n`. -/
def nodalForce (d : Nat) (σ : Nat → R) (G : Nat → Nat → R) (n i : Nat) : R :=
  ∑ j ∈ range d, σ (voigtIndex d i j) * G n j

theorem stressDivergence_ok {d ndof off c : Nat} {T : V2 Nat} {out stress : V2 R} {g : V3 R}
    {vol : List R} (scale : R) (hd : d = 1 ∨ d = 2 ∨ d = 3) (hT0 : T.d0 = d) (hT1 : T.d1 = d)
    (hT : ∀ i j, i < d → j < d → T.e i j = voigtIndex d i j) (ho : c < out.d0)
    (ho1 : (d + 1) * ndof ≤ out.d1) (hoff : d + off ≤ ndof) (hs : c < stress.d0)
    (hs1 : stress.d1 = numVoigt d) (hg : c < g.d0) (hg1 : g.d1 = d + 1) (hg2 : g.d2 = d)
    (hv : c < vol.length) (f : Nat → R) :
    stressDivergence d ndof off T c (out.row c f) stress g vol scale =
      .ok (out.row c (f + ∑ i ∈ range d, ∑ n ∈ range (d + 1), Pi.single (n * ndof + i + off)
        (scale * at0 vol c * nodalForce d (stress.e c) (g.e c) n i))) := by
  rw [stressDivergence]
  refine forRange_addrow _ _ fun i f hi => forRange_addrow _ _ fun n f hn => ?_
  rw [forRange_addrow (fun j => Pi.single (n * ndof + i + off)
    (scale * at0 vol c * stress.e c (voigtIndex d i j) * g.e c n j)) _ (by
      intro j f hj
      rw [rd_at0 hv, vrd2_ok (y := T) (by omega) (by omega), hT i j hi hj]
      simp only [Res.ok_bind]
      rw [vrd2_ok hs (hs1 ▸ voigtIndex_lt hd hi hj), vrd3_ok hg (by omega) (by omega)]
      simp only [Res.ok_bind]
      refine accum2_row ho ?_
      rw [add_assoc]
      exact (dof_lt hn (by omega)).trans_le ho1)]
  congr 3
  rw [nodalForce, mul_sum]
  funext r
  by_cases h : r = n * ndof + i + off
  · subst h; simp [mul_assoc]
  · simp [h]

/-! ## Linear stress, density, weighting -/

theorem linearStress_ok {d c : Nat} {C : Nat → Nat → R} {e0 : Nat → R} {stress strain : V2 R}
    (hs : c < stress.d0) (hs1 : stress.d1 = numVoigt d) (he : c < strain.d0)
    (he1 : strain.d1 = numVoigt d) :
    linearStress d C e0 c stress strain = .ok (stress.row c fun t => if t < numVoigt d then
      ∑ s ∈ range (numVoigt d), (strain.e c s - e0 s) * C t s else stress.e c t) := by
  rw [linearStress]
  conv_lhs => rw [← V2.row_self stress c]
  rw [forRange_row (fun t _ => ∑ s ∈ range (numVoigt d), (strain.e c s - e0 s) * C t s)]
  intro t f ht
  rw [vwr2_row hs (by omega), Res.ok_bind,
    forRange_addrow (fun s => Pi.single t ((strain.e c s - e0 s) * C t s)) _ (by
      intro s f hs'
      rw [vrd2_ok he (by omega), Res.ok_bind]
      exact accum2_row hs (by omega))]
  congr 2
  funext r
  by_cases h : r = t
  · subst h; simp
  · simp [h]

theorem cellSum_ok {npc c : Nat} {z : V2 R} (hz : c < z.d0) (hz1 : npc ≤ z.d1) :
    cellSum npc c z = .ok (∑ n ∈ range npc, z.e c n) := by
  rw [cellSum]
  have := forRange_eq (n := npc) (body := fun n s => do
    let z ← vrd2 z c n
    pure (s + z)) (fun k => ∑ n ∈ range k, z.e c n) (by
      intro k hk
      rw [vrd2_ok hz (by omega), Res.ok_bind, Res.pure_eq, sum_range_succ])
  simpa using this

variable [Div R]

/-- Mean of the control values of a cell. -/
def meanDensity (npc : Nat) (z : Nat → R) : R := (∑ n ∈ range npc, z n) / (npc : R)

theorem cellDensity_ok {npc c : Nat} {z : V2 R} (hz : c < z.d0) (hz1 : npc ≤ z.d1) :
    cellDensity npc c z = .ok (meanDensity npc (z.e c)) := by
  rw [cellDensity, cellSum_ok hz hz1]; rfl

theorem applyWeighting_ok {npc terms c : Nat} {pen : R → R} {y z : V2 R} (hz : c < z.d0)
    (hz1 : npc ≤ z.d1) (hy : c < y.d0) (hy1 : terms ≤ y.d1) :
    applyWeighting npc terms pen c y z = .ok (y.row c fun t => if t < terms then
      y.e c t * pen (meanDensity npc (z.e c)) else y.e c t) := by
  rw [applyWeighting, cellDensity_ok hz hz1, Res.ok_bind]
  conv_lhs => rw [← V2.row_self y c]
  rw [forRange_row (fun t v => v * pen (meanDensity npc (z.e c)))]
  intro t f ht
  rw [vrd2_row hy (by omega), Res.ok_bind, vwr2_row hy (by omega)]
  congr 2
  funext r
  by_cases h : r = t <;> simp [h]

omit [Div R] in
theorem addForcing_ok {C : Nat → Nat → R} {col c : Nat} {y : V2 R} (hy : c < y.d0) :
    addForcing C col c y = .ok (y.row c fun t => if t < y.d1 then y.e c t - C t col else y.e c t) := by
  rw [addForcing]
  conv_lhs => rw [← V2.row_self y c]
  rw [show (y.row c (y.e c)).d1 = y.d1 from rfl, forRange_row (fun t v => v - C t col)]
  intro t f ht
  rw [vrd2_row hy ht, Res.ok_bind, vwr2_row hy ht]
  congr 2
  funext r
  by_cases h : r = t <;> simp [h]

omit [Div R] in
theorem scalarProduct_ok {terms c : Nat} {prod vol : List R} {t1 t2 : V2 R} {scale : R}
    (h1 : c < t1.d0) (h11 : terms ≤ t1.d1) (h2 : c < t2.d0) (h21 : terms ≤ t2.d1)
    (hv : c < vol.length) (hp : c < prod.length) :
    scalarProduct terms c prod t1 t2 vol scale = .ok (prod.set c (at0 prod c +
      scale * (∑ t ∈ range terms, t1.e c t * t2.e c t) * at0 vol c)) := by
  rw [scalarProduct]
  have := forRange_eq (n := terms) (body := fun t (inc : R) => do
    let a ← vrd2 t1 c t
    let b ← vrd2 t2 c t
    pure (inc + a * b)) (fun k => ∑ t ∈ range k, t1.e c t * t2.e c t) (by
      intro k hk
      rw [vrd2_ok h1 (by omega), vrd2_ok h2 (by omega)]
      simp only [Res.ok_bind, Res.pure_eq]
      rw [sum_range_succ])
  rw [sum_range_zero] at this
  rw [this, rd_at0 hv, rd_at0 hp]
  simp only [Res.ok_bind]
  rw [wr_eq hp]

/-! ## Virtual work -/

omit [Div R] in
/-- **C45.**  For every stress and every virtual displacement, the work of the nodal forces is the
scalar product of the stress with the strain of the virtual displacement: the force functor is the
adjoint of the strain functor. -/
theorem C45_virtual_work {d : Nat} (hd : d = 1 ∨ d = 2 ∨ d = 3) (σ : Nat → R) (V G : Nat → Nat → R) :
    ∑ i ∈ range d, ∑ n ∈ range (d + 1), V n i * nodalForce d σ G n i =
      ∑ t ∈ range (numVoigt d), σ t * voigtStrain d V G t := by
  rcases hd with rfl | rfl | rfl <;>
    simp [nodalForce, voigtStrain, voigtPair, voigtIndex, fieldGrad, numVoigt, sum_range_succ] <;> ring

end Plato.Mech
