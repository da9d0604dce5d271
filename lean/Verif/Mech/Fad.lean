import Mathlib.Algebra.TrivSqZeroExt.Basic
import Mathlib.Analysis.Calculus.Deriv.Inv
import Mathlib.Analysis.Calculus.Deriv.Abs
import Mathlib.Analysis.Calculus.FDeriv.Mul
import Mathlib.Analysis.Calculus.FDeriv.Add

/-!
# Forward automatic differentiation

The scalar type `Sacado::Fad::SFad` of the worksets: a value and an array of derivatives.  The library
is not part of the repository: this file defines its documented arithmetic, and proves that a value
computed with it carries the derivative of the real function computed by the same operations.
-/

namespace Plato.Mech
open Finset

/-- A value with derivative components; the components beyond the length of the array are zero. -/
def Fad : Type := TrivSqZeroExt ℝ (ℕ → ℝ)

namespace Fad

noncomputable instance : CommRing Fad := inferInstanceAs (CommRing (TrivSqZeroExt ℝ (ℕ → ℝ)))

/-- `.val()` -/
def val (a : Fad) : ℝ := TrivSqZeroExt.fst a

/-- `.dx(k)` -/
def dx (a : Fad) (k : ℕ) : ℝ := TrivSqZeroExt.snd a k

/-- value and derivatives -/
def mk (v : ℝ) (d : ℕ → ℝ) : Fad := (v, d)

@[simp] theorem val_mk (v : ℝ) (d : ℕ → ℝ) : (mk v d).val = v := rfl
@[simp] theorem dx_mk (v : ℝ) (d : ℕ → ℝ) (k : ℕ) : (mk v d).dx k = d k := rfl

/-- A plain number used as automatic differentiation value. -/
def const (v : ℝ) : Fad := mk v 0

/-- `SFad(n, i, v)`: independent variable number `i`. -/
def seed (i : ℕ) (v : ℝ) : Fad := mk v (Pi.single i 1)

/-- Division: quotient rule. -/
noncomputable instance : Div Fad :=
  ⟨fun a b => mk (a.val / b.val) fun k => (a.dx k * b.val - a.val * b.dx k) / (b.val * b.val)⟩

/-- `fabs`: the derivative changes sign with the value. -/
noncomputable def fabs (a : Fad) : Fad := if 0 ≤ a.val then a else -a

@[ext] theorem ext {a b : Fad} (h : a.val = b.val) (h' : ∀ k, a.dx k = b.dx k) : a = b :=
  TrivSqZeroExt.ext h (funext h')

@[simp] theorem val_add (a b : Fad) : (a + b).val = a.val + b.val := rfl
@[simp] theorem dx_add (a b : Fad) (k : ℕ) : (a + b).dx k = a.dx k + b.dx k := rfl
@[simp] theorem val_sub (a b : Fad) : (a - b).val = a.val - b.val := rfl
@[simp] theorem dx_sub (a b : Fad) (k : ℕ) : (a - b).dx k = a.dx k - b.dx k := rfl
@[simp] theorem val_neg (a : Fad) : (-a).val = -a.val := rfl
@[simp] theorem dx_neg (a : Fad) (k : ℕ) : (-a).dx k = -a.dx k := rfl
@[simp] theorem val_zero : (0 : Fad).val = 0 := rfl
@[simp] theorem dx_zero (k : ℕ) : (0 : Fad).dx k = 0 := rfl
@[simp] theorem val_one : (1 : Fad).val = 1 := rfl
@[simp] theorem dx_one (k : ℕ) : (1 : Fad).dx k = 0 := rfl
@[simp] theorem val_natCast (n : ℕ) : (n : Fad).val = n := TrivSqZeroExt.fst_natCast n
@[simp] theorem dx_natCast (n k : ℕ) : (n : Fad).dx k = 0 := congrFun (TrivSqZeroExt.snd_natCast n) k
@[simp] theorem val_mul (a b : Fad) : (a * b).val = a.val * b.val := rfl
@[simp] theorem dx_mul (a b : Fad) (k : ℕ) : (a * b).dx k = a.val * b.dx k + b.val * a.dx k := by
  show (TrivSqZeroExt.snd (_ : TrivSqZeroExt ℝ (ℕ → ℝ))) k = _
  erw [TrivSqZeroExt.snd_mul]
  simp [val, dx]
@[simp] theorem val_div (a b : Fad) : (a / b).val = a.val / b.val := rfl
@[simp] theorem dx_div (a b : Fad) (k : ℕ) :
    (a / b).dx k = (a.dx k * b.val - a.val * b.dx k) / (b.val * b.val) := rfl

end Fad

/-! ## Correctness of the arithmetic -/

variable {E : Type} [NormedAddCommGroup E] [NormedSpace ℝ E]

/-- `a` carries the value of `f` at `x` and the derivative of `f` at `x`, expressed in the independent
variables `L`. -/
structure Tracks (L : ℕ → E →L[ℝ] ℝ) (N : ℕ) (x : E) (a : Fad) (f : E → ℝ) : Prop where
  val : a.val = f x
  deriv : HasFDerivAt f (∑ l ∈ range N, a.dx l • L l) x

namespace Tracks

variable {L : ℕ → E →L[ℝ] ℝ} {N : ℕ} {x : E} {a b : Fad} {f g : E → ℝ}

theorem const (v : ℝ) : Tracks L N x (Fad.const v) fun _ => v :=
  ⟨rfl, by simpa [Fad.const] using hasFDerivAt_const v x⟩

theorem zero : Tracks L N x 0 fun _ => 0 := ⟨rfl, by simpa using hasFDerivAt_const (0 : ℝ) x⟩

theorem one : Tracks L N x 1 fun _ => 1 := ⟨rfl, by simpa using hasFDerivAt_const (1 : ℝ) x⟩

theorem natCast (n : ℕ) : Tracks L N x n fun _ => (n : ℝ) :=
  ⟨Fad.val_natCast n, by simpa using hasFDerivAt_const (n : ℝ) x⟩

/-- Independent variables. -/
theorem seed {i : ℕ} (hi : i < N) : Tracks L N x (Fad.seed i (L i x)) fun y => L i y := by
  refine ⟨rfl, ?_⟩
  have : ∑ l ∈ range N, (Fad.seed i (L i x)).dx l • L l = L i := by
    rw [sum_eq_single_of_mem i (mem_range.2 hi)]
    · simp [Fad.seed]
    · intro l _ hl
      simp [Fad.seed, Pi.single_eq_of_ne hl]
  rw [this]
  exact (L i).hasFDerivAt

theorem congr (h : Tracks L N x a f) (e : f = g) : Tracks L N x a g := e ▸ h

theorem add (ha : Tracks L N x a f) (hb : Tracks L N x b g) :
    Tracks L N x (a + b) fun y => f y + g y := by
  refine ⟨by simp [ha.val, hb.val], (ha.deriv.add hb.deriv).congr_fderiv ?_⟩
  rw [← sum_add_distrib]
  exact sum_congr rfl fun l _ => by rw [Fad.dx_add, add_smul]

theorem neg (ha : Tracks L N x a f) : Tracks L N x (-a) fun y => -f y := by
  refine ⟨by simp [ha.val], ha.deriv.neg.congr_fderiv ?_⟩
  rw [← sum_neg_distrib]
  exact sum_congr rfl fun l _ => by rw [Fad.dx_neg]; exact (neg_smul _ _).symm

theorem sub (ha : Tracks L N x a f) (hb : Tracks L N x b g) :
    Tracks L N x (a - b) fun y => f y - g y := by
  simpa [sub_eq_add_neg] using ha.add hb.neg

theorem mul (ha : Tracks L N x a f) (hb : Tracks L N x b g) :
    Tracks L N x (a * b) fun y => f y * g y := by
  refine ⟨by simp [ha.val, hb.val], (ha.deriv.mul hb.deriv).congr_fderiv ?_⟩
  rw [smul_sum, smul_sum, ← sum_add_distrib]
  exact sum_congr rfl fun l _ => by rw [Fad.dx_mul, ha.val, hb.val, add_smul, smul_smul, smul_smul]

/-- A function of one variable applied to a value. -/
theorem comp {φ : ℝ → ℝ} {φ' : ℝ} (ha : Tracks L N x a f) (hφ : HasDerivAt φ φ' (f x)) {b : Fad}
    (hv : b.val = φ (f x)) (hd : ∀ k, b.dx k = φ' * a.dx k) : Tracks L N x b fun y => φ (f y) := by
  refine ⟨hv, (hφ.comp_hasFDerivAt x ha.deriv).congr_fderiv ?_⟩
  rw [smul_sum]
  exact sum_congr rfl fun l _ => by rw [hd, smul_smul]

theorem div (ha : Tracks L N x a f) (hb : Tracks L N x b g) (h : g x ≠ 0) :
    Tracks L N x (a / b) fun y => f y / g y := by
  have hi : Tracks L N x (Fad.mk (b.val)⁻¹ fun k => -(b.val ^ 2)⁻¹ * b.dx k) fun y => (g y)⁻¹ :=
    hb.comp (hasDerivAt_inv h) (by simp [hb.val]) fun k => by simp [hb.val]
  have := ha.mul hi
  have e : a * (Fad.mk (b.val)⁻¹ fun k => -(b.val ^ 2)⁻¹ * b.dx k) = a / b := by
    have hb0 : b.val ≠ 0 := by rw [hb.val]; exact h
    ext k
    · simp [div_eq_mul_inv]
    · simp only [Fad.dx_mul, Fad.dx_div, Fad.val_mk, Fad.dx_mk]
      field_simp
      ring
  rw [e] at this
  simpa [div_eq_mul_inv] using this

theorem fabs (ha : Tracks L N x a f) (h : f x ≠ 0) : Tracks L N x (Fad.fabs a) fun y => |f y| := by
  unfold Fad.fabs
  rw [ha.val]
  rcases lt_or_gt_of_ne h with hn | hp
  · rw [if_neg (not_le.2 hn)]
    exact ha.comp (hasDerivAt_abs_neg hn) (by rw [Fad.val_neg, ha.val, abs_of_neg hn]) fun k => by simp
  · rw [if_pos hp.le]
    exact ha.comp (hasDerivAt_abs_pos hp) (by rw [ha.val, abs_of_pos hp]) fun k => by simp

theorem sum {ι : Type} (s : Finset ι) {A : ι → Fad} {F : ι → E → ℝ}
    (h : ∀ i ∈ s, Tracks L N x (A i) (F i)) : Tracks L N x (∑ i ∈ s, A i) fun y => ∑ i ∈ s, F i y := by
  classical
  induction s using Finset.induction_on with
  | empty => simpa using zero
  | insert i s hi ih =>
    simp only [sum_insert hi]
    exact (h i (mem_insert_self _ _)).add (ih fun j hj => h j (mem_insert_of_mem hj))

theorem ite {p : Prop} [Decidable p] (ha : Tracks L N x a f) (hb : Tracks L N x b g) :
    Tracks L N x (if p then a else b) fun y => if p then f y else g y := by
  split_ifs <;> assumption

end Tracks

end Plato.Mech
