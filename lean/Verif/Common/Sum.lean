import Mathlib.Algebra.BigOperators.Intervals
import Mathlib.Algebra.BigOperators.Ring.Finset
import Mathlib.Tactic.Ring
import Verif.Common.Res

/-!
# Helper lemmas: view entries as total functions, block sums

`at0 v i` is the entry of a view, and zero outside the view.  It is used in specifications
only; the models use the checked accesses `rd` and `wr`.
-/

namespace Plato

open Finset

variable {K : Type*}

/-- Entry `i` of a view, zero outside. Used in specifications. -/
def at0 [Zero K] (v : List K) (i : Nat) : K := (v[i]?).getD 0

theorem at0_eq [Zero K] {v : List K} {i : Nat} (h : i < v.length) : at0 v i = v[i] := by
  simp [at0, h]

theorem at0_out [Zero K] {v : List K} {i : Nat} (h : v.length ≤ i) : at0 v i = 0 := by
  simp [at0, h]

theorem rd_at0 [Zero K] {v : List K} {i : Nat} (h : i < v.length) : rd v i = Res.ok (at0 v i) := by
  rw [rd_eq h, at0_eq h]

theorem at0_set [Zero K] {v : List K} {i j : Nat} {a : K} (h : i < v.length) :
    at0 (v.set i a) j = if j = i then a else at0 v j := by
  unfold at0
  rw [List.getElem?_set]
  by_cases hij : i = j
  · subst hij; simp [h]
  · simp [hij, Ne.symm hij]

theorem ext_at0 [Zero K] {v w : List K} (hl : v.length = w.length)
    (h : ∀ i, i < v.length → at0 v i = at0 w i) : v = w := by
  apply List.ext_getElem hl
  intro i h1 h2
  have := h i h1
  rwa [at0_eq h1, at0_eq h2] at this

theorem at0_map_range [Zero K] (f : Nat → K) (n i : Nat) (h : i < n) :
    at0 ((List.range n).map f) i = f i := by
  rw [at0_eq (by simpa using h)]; simp

/-- Splitting a sum over `n*c` indices into `n` blocks of `c`. -/
theorem sum_range_blocks [AddCommMonoid K] (g : Nat → K) (n c : Nat) :
    ∑ j ∈ range (n * c), g j = ∑ q ∈ range n, ∑ r ∈ range c, g (q * c + r) := by
  induction n with
  | zero => simp
  | succ n ih =>
    rw [Nat.succ_mul, sum_range_add, ih, sum_range_succ]

/-- Summing over the columns of one block. -/
theorem sum_block_ite [AddCommMonoid K] (g : Nat → Nat → K) {n c q0 : Nat} (hq : q0 < n) :
    (∑ j ∈ range (n * c), if q0 = j / c then g (j / c) (j % c) else 0)
      = ∑ r ∈ range c, g q0 r := by
  rw [sum_range_blocks]
  rw [sum_eq_single q0]
  · apply sum_congr rfl
    intro r hr
    have hr := mem_range.1 hr
    have h1 : (q0 * c + r) / c = q0 := by
      rw [Nat.mul_comm, Nat.mul_add_div (by omega), Nat.div_eq_of_lt hr]; omega
    have h2 : (q0 * c + r) % c = r := by
      rw [Nat.mul_comm, Nat.mul_add_mod, Nat.mod_eq_of_lt hr]
    simp [h1, h2]
  · intro q _ hne
    apply sum_eq_zero
    intro r hr
    have hr := mem_range.1 hr
    have h1 : (q * c + r) / c = q := by
      rw [Nat.mul_comm, Nat.mul_add_div (by omega), Nat.div_eq_of_lt hr]; omega
    rw [h1, if_neg (Ne.symm hne)]
  · intro h; exact absurd (mem_range.2 hq) h

theorem div_block {c q r : Nat} (h : r < c) : (c * q + r) / c = q := by
  rw [Nat.mul_add_div (by omega), Nat.div_eq_of_lt h]; omega

theorem mod_block {c q r : Nat} (h : r < c) : (c * q + r) % c = r := by
  rw [Nat.mul_add_mod, Nat.mod_eq_of_lt h]

theorem block_lt {c q r n : Nat} (hr : r < c) (hq : q < n) : c * q + r < n * c := by
  have : c * (q + 1) ≤ c * n := Nat.mul_le_mul_left c hq
  rw [Nat.mul_comm n c]; rw [Nat.mul_add] at this; omega

end Plato
