import Mathlib.Data.Matrix.Mul
import Mathlib.Tactic.LinearCombination
import Verif.Bc.ConstraintsProps

/-!
# The constrained linear system, as seen by the time integrators

The time stepping and adjoint drivers are modelled on dense matrices and vectors indexed by the
degrees of freedom.  `conMat` and `conRhs` are what `applyConstraints`/`applyBlockConstraints` do
to the dense matrix and the right hand side; `con_of_constrained` connects them to the theorem
about the storage level model (`Constrained`, property C09).
-/

namespace Plato

open Matrix Finset

variable {K ι : Type} [Field K] [Fintype ι] [DecidableEq ι]

/-- The prescribed values: `c i = some v` when degree of freedom `i` is constrained to `v`. -/
abbrev Dirichlet (K ι : Type) := ι → Option K

/-- Dense matrix after `applyConstraints`/`applyBlockConstraints`,
/repo/src/ApplyConstraints.hpp (see `Verif/Bc/ConstraintsModel.lean`, C09). -/
def conMat (c : Dirichlet K ι) (J : Matrix ι ι K) : Matrix ι ι K := fun i j =>
  if (c i).isSome ∨ (c j).isSome then (if i = j then 1 else 0) else J i j

/-- Right hand side after `applyConstraints`/`applyBlockConstraints` with argument `aScale = s`. -/
def conRhs (s : K) (c : Dirichlet K ι) (J : Matrix ι ι K) (b : ι → K) : ι → K := fun i =>
  match c i with
  | some v => s * v
  | none => b i - ∑ j, J j i * (s * (c j).getD 0)

theorem con_row_some {c : Dirichlet K ι} {J : Matrix ι ι K} {x : ι → K} {i : ι} {v : K}
    (h : c i = some v) : (conMat c J *ᵥ x) i = x i := by
  simp only [mulVec, dotProduct, conMat, h, Option.isSome_some, true_or, if_true]
  simp

theorem con_row_none {s : K} {c : Dirichlet K ι} {J : Matrix ι ι K} {x : ι → K} {i : ι}
    (h : c i = none) (hx : ∀ i v, c i = some v → x i = s * v) :
    (conMat c J *ᵥ x) i = (J *ᵥ x) i - ∑ j, J i j * (s * (c j).getD 0) := by
  simp only [mulVec, dotProduct]
  rw [eq_sub_iff_add_eq, ← sum_add_distrib]
  refine sum_congr rfl fun j _ => ?_
  rcases hj : c j with _ | v
  · simp [conMat, h, hj]
  · have hne : i ≠ j := by rintro rfl; rw [h] at hj; cases hj
    simp [conMat, hj, hne, hx j v hj]

/-- Solutions of the constrained system of a general matrix: the prescribed values are taken, and
the free equations hold up to a defect that comes from the missing symmetry. -/
theorem conSys_gen {s : K} {c : Dirichlet K ι} {J : Matrix ι ι K} {b x : ι → K} :
    conMat c J *ᵥ x = conRhs s c J b ↔
      (∀ i v, c i = some v → x i = s * v) ∧
      ∀ i, c i = none → (J *ᵥ x) i = b i + ∑ j, (J i j - J j i) * (s * (c j).getD 0) := by
  constructor
  · intro h
    have hx : ∀ i v, c i = some v → x i = s * v := by
      intro i v hi
      have := congrFun h i
      rw [con_row_some hi] at this
      rw [this]; simp [conRhs, hi]
    refine ⟨hx, fun i hi => ?_⟩
    have := congrFun h i
    rw [con_row_none hi hx] at this
    simp only [conRhs, hi] at this
    simp only [sub_mul, sum_sub_distrib]
    linear_combination this
  · rintro ⟨hx, hf⟩
    funext i
    rcases hi : c i with _ | v
    · rw [con_row_none hi hx, hf i hi]
      simp only [conRhs, hi, sub_mul, sum_sub_distrib]
      ring
    · rw [con_row_some hi, hx i v hi]; simp [conRhs, hi]

/-- For a symmetric matrix the constrained system is equivalent to the prescribed values together
with the original equations at the free degrees of freedom. -/
theorem conSys_symm {s : K} {c : Dirichlet K ι} {J : Matrix ι ι K} {b x : ι → K}
    (hJ : ∀ i j, J i j = J j i) :
    conMat c J *ᵥ x = conRhs s c J b ↔
      (∀ i v, c i = some v → x i = s * v) ∧ ∀ i, c i = none → (J *ᵥ x) i = b i := by
  rw [conSys_gen]
  have : ∀ i, ∑ j, (J i j - J j i) * (s * (c j).getD 0) = 0 := fun i =>
    sum_eq_zero fun j _ => by rw [hJ i j, sub_self, zero_mul]
  simp only [this, add_zero]

/-- With zero prescribed values no symmetry is needed. -/
theorem conSys_zero {s : K} {c : Dirichlet K ι} {J : Matrix ι ι K} {b x : ι → K}
    (h0 : ∀ i v, c i = some v → s * v = 0) :
    conMat c J *ᵥ x = conRhs s c J b ↔
      (∀ i v, c i = some v → x i = 0) ∧ ∀ i, c i = none → (J *ᵥ x) i = b i := by
  rw [conSys_gen]
  have h1 : ∀ j, s * (c j).getD 0 = 0 := by
    intro j
    rcases hj : c j with _ | v
    · simp
    · simpa using h0 j v hj
  simp only [h1, mul_zero, sum_const_zero, add_zero]
  refine and_congr_left fun _ => ?_
  exact ⟨fun h i v hi => (h i v hi).trans (h0 i v hi), fun h i v hi => (h i v hi).trans (h0 i v hi).symm⟩

/-- The prescribed values given by the arrays `mBcDofs`, `mBcValues`. -/
def dirichletOf (N : Nat) (dofs : List Nat) (bvals : List K) : Dirichlet K (Fin N) := fun i =>
  if i.val ∈ dofs then some (at0 bvals (dofs.idxOf i.val)) else none

/-- The matrix and the right hand side produced by the storage level kernels are `conMat` and
`conRhs`. -/
theorem con_of_constrained {A A' : Crs K} {n D : Nat} {scale : K} {rhs b' : List K}
    {dofs : List Nat} {bvals : List K} (h : Constrained A n D scale rhs dofs bvals A' b')
    (hnd : dofs.Nodup) (hlt : ∀ d ∈ dofs, d < n * D) :
    (fun i j : Fin (n * D) => A'.dense i j) =
      conMat (dirichletOf (n * D) dofs bvals) (fun i j => A.dense i j) ∧
    (fun i : Fin (n * D) => at0 b' i) =
      conRhs scale (dirichletOf (n * D) dofs bvals) (fun i j => A.dense i j)
        (fun i => at0 rhs i) := by
  have hidx : ∀ i ∈ dofs, dofs.idxOf i < dofs.length ∧ atN dofs (dofs.idxOf i) = i := by
    intro i hi
    have h1 := List.idxOf_lt_length_of_mem hi
    exact ⟨h1, (at0_eq h1).trans (List.getElem_idxOf h1)⟩
  have hcs : ∀ i : Fin (n * D), (dirichletOf (n * D) dofs bvals i).isSome ↔ i.val ∈ dofs := by
    intro i; unfold dirichletOf; split <;> simp_all
  refine ⟨?_, ?_⟩
  · funext i j
    rw [h.entries i j i.2 j.2]
    simp only [conMat, hcs, constrainedEntry, Fin.ext_iff]
  · funext i
    unfold conRhs
    by_cases hi : i.val ∈ dofs
    · obtain ⟨h1, h2⟩ := hidx _ hi
      have := h.prescribed _ h1
      rw [h2] at this
      simp only [dirichletOf, hi, if_true, this]
    · have hc : dirichletOf (n * D) dofs bvals i = none := by simp [dirichletOf, hi]
      simp only [hc]
      rw [h.free i i.2 hi, reducedRhs]
      congr 1
      have := sum_dofs (N := n * D) hnd hlt
        (fun j => A.dense j i * (scale * at0 bvals (dofs.idxOf j)))
      have e : ∑ t ∈ range dofs.length, A.dense (atN dofs t) i * (scale * at0 bvals t)
          = ∑ t ∈ range dofs.length, A.dense (atN dofs t) i *
              (scale * at0 bvals (dofs.idxOf (atN dofs t))) := by
        refine sum_congr rfl fun t ht => ?_
        have ht := mem_range.1 ht
        have : dofs.idxOf (atN dofs t) = t := by
          rw [show atN dofs t = dofs[t] from at0_eq ht]
          exact hnd.idxOf_getElem t ht
        rw [this]
      rw [e, ← this, ← Fin.sum_univ_eq_sum_range (fun j => if j ∈ dofs then
        A.dense j i * (scale * at0 bvals (dofs.idxOf j)) else 0)]
      refine sum_congr rfl fun j _ => ?_
      unfold dirichletOf
      split <;> simp

end Plato
