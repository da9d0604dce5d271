import Mathlib.LinearAlgebra.Matrix.Determinant.Basic
import Mathlib.LinearAlgebra.Matrix.ToLinearEquiv
import Mathlib.Tactic.FieldSimp
import Mathlib.Tactic.FinCases
import Verif.Simplex.Model
import Verif.Blas.Matrix

/-!
# Gradients and volumes of simplices (C20)
-/

namespace Plato

open Finset

/-! ## Specification -/

section Spec

variable {K : Type} [Field K] {d : ℕ}

/-- The interpolated gradient of every affine nodal field is the gradient of the field. -/
def Reproduces (X G : Fin (d + 1) → Fin d → K) : Prop :=
  ∀ (c : K) (g : Fin d → K) (k : Fin d), ∑ n, (c + ∑ i, g i * X n i) * G n k = g k

/-- Edge vectors from the last node, as columns. -/
def edges (X : Fin (d + 1) → Fin d → K) : Matrix (Fin d) (Fin d) K :=
  Matrix.of fun i j => X j.castSucc i - X (Fin.last d) i

end Spec

variable {K : Type} [Field K]

theorem Reproduces.sum_zero {d : ℕ} {X G : Fin (d + 1) → Fin d → K} (h : Reproduces X G) (k : Fin d) :
    ∑ n, G n k = 0 := by
  have := h 1 0 k
  simpa using this

/-- Gradients can only be reproduced on non-degenerate simplices. -/
theorem C20_degenerate {d : ℕ} {X : Fin (d + 1) → Fin d → K} (h : (edges X).det = 0) :
    ¬ ∃ G, Reproduces X G := by
  rintro ⟨G, hG⟩
  obtain ⟨v, hv, hv0⟩ := Matrix.exists_vecMul_eq_zero_iff.mpr h
  apply hv
  funext k
  have hz : ∀ n, -(∑ i, v i * X (Fin.last d) i) + ∑ i, v i * X n i = 0 := by
    intro n
    refine Fin.lastCases ?_ (fun j => ?_) n
    · simp
    · have := congrFun hv0 j
      simp only [Matrix.vecMul, dotProduct, edges, Matrix.of_apply, mul_sub, Finset.sum_sub_distrib,
        Pi.zero_apply] at this
      rw [neg_add_eq_sub]
      exact this
  have := hG (-(∑ i, v i * X (Fin.last d) i)) v k
  simp only [hz, zero_mul, Finset.sum_const_zero] at this
  simpa using this.symm

/-- Criterion: the first `d` rows invert the edge matrix, the last is minus their sum. -/
theorem Reproduces.of_inverse {d : ℕ} {X G : Fin (d + 1) → Fin d → K}
    (hinv : ∀ i k, ∑ j : Fin d, edges X i j * G j.castSucc k = if i = k then 1 else 0)
    (hlast : ∀ k, G (Fin.last d) k = -∑ j : Fin d, G j.castSucc k) : Reproduces X G := by
  intro c g k
  rw [Fin.sum_univ_castSucc, hlast]
  have : ∀ j : Fin d, (c + ∑ i, g i * X j.castSucc i) * G j.castSucc k =
      (c + ∑ i, g i * X (Fin.last d) i) * G j.castSucc k +
        ∑ i, g i * (edges X i j * G j.castSucc k) := by
    intro j
    have e : ∑ i, g i * (edges X i j * G j.castSucc k) =
        (∑ i, g i * X j.castSucc i - ∑ i, g i * X (Fin.last d) i) * G j.castSucc k := by
      rw [← Finset.sum_sub_distrib, Finset.sum_mul]
      refine Finset.sum_congr rfl fun i _ => ?_
      simp only [edges, Matrix.of_apply]
      ring
    rw [e]
    ring
  simp only [this, Finset.sum_add_distrib, ← Finset.mul_sum]
  rw [Finset.sum_comm]
  simp only [← Finset.mul_sum, hinv]
  simp

/-! ## The functors -/

variable [LinearOrder K]

/-- The nodes of a cell in the configuration workset. -/
def nodesOf (d : ℕ) (cfg : V3 K) (cell : ℕ) : Fin (d + 1) → Fin d → K := fun n i => cfg.e cell n i

/-- The result of the functor for one cell: values of the cell, nothing else changed. -/
structure GradResult (d : ℕ) (cell : ℕ) (cfg g g' : V3 K) (vol vol' : List K) : Prop where
  dims : g'.d0 = g.d0 ∧ g'.d1 = g.d1 ∧ g'.d2 = g.d2
  frame : ∀ c, c ≠ cell → g'.e c = g.e c
  vol : vol' = vol.set cell |(edges (nodesOf d cfg cell)).det|
  grad : (edges (nodesOf d cfg cell)).det ≠ 0 →
    Reproduces (nodesOf d cfg cell) fun n k => g'.e cell n k

section Functors

variable {cell : ℕ} {g cfg : V3 K} {vol : List K}

omit [LinearOrder K] in
theorem edges_det1 (X : Fin 2 → Fin 1 → K) : (edges X).det = X 0 0 - X 1 0 := by
  rw [Matrix.det_fin_one]
  rfl

omit [LinearOrder K] in
theorem edges_det2 (X : Fin 3 → Fin 2 → K) : (edges X).det =
    (X 0 0 - X 2 0) * (X 1 1 - X 2 1) - (X 1 0 - X 2 0) * (X 0 1 - X 2 1) := by
  rw [Matrix.det_fin_two]
  rfl

omit [LinearOrder K] in
theorem edges_det3 (X : Fin 4 → Fin 3 → K) : (edges X).det =
    detj3 (X 0 0 - X 3 0) (X 1 0 - X 3 0) (X 2 0 - X 3 0) (X 0 1 - X 3 1) (X 1 1 - X 3 1)
      (X 2 1 - X 3 1) (X 0 2 - X 3 2) (X 1 2 - X 3 2) (X 2 2 - X 3 2) := by
  rw [Matrix.det_fin_three]
  have e : ∀ i j : Fin 3, edges X i j = X j.castSucc i - X 3 i := fun i j => rfl
  simp only [e, detj3, Fin.isValue, Fin.castSucc_zero, Fin.castSucc_one]
  rw [show (2 : Fin 3).castSucc = (2 : Fin 4) from rfl]
  ring

/-- Update of one entry of a matrix. -/
def upd2 (f : ℕ → ℕ → K) (n i : ℕ) (a : K) : ℕ → ℕ → K := fun r c => if r = n ∧ c = i then a else f r c

theorem gradient1_ok (hc : cell < cfg.d0) (h1 : cfg.d1 = 2) (h2 : cfg.d2 = 1) (hg : cell < g.d0)
    (hg1 : g.d1 = 2) (hg2 : g.d2 = 1) (hv : cell < vol.length) :
    ∃ g' vol', computeGradient1 abs cell g cfg vol = .ok (g', vol') ∧
      GradResult 1 cell cfg g g' vol vol' := by
  have hr : ∀ n i, n < 2 → i < 1 → vrd3 cfg cell n i = .ok (cfg.e cell n i) := fun n i hn hi =>
    vrd3_ok hc (by omega) (by omega)
  have hw : ∀ f n i a, n < 2 → i < 1 → vwr3 (g.cell cell f) cell n i a =
      .ok (g.cell cell (upd2 f n i a)) := fun f n i a hn hi => vwr3_cell hg (by omega) (by omega)
  have hwv : ∀ a, wr vol cell a = .ok (vol.set cell a) := fun a => by simp [wr, hv]
  generalize hf : g.e cell = f
  have hself : g = g.cell cell f := by rw [← hf, V3.cell_self]
  refine ⟨_, _, by
    conv_lhs => rw [hself]
    simp (disch := omega) only [computeGradient1, hr, hw, hwv, Res.ok_bind, Res.pure_eq]
    rfl, ?_⟩
  refine ⟨⟨rfl, rfl, rfl⟩, fun c hcc => by simp [V3.cell, hcc], by rw [edges_det1]; rfl, fun hdet => ?_⟩
  rw [edges_det1] at hdet
  unfold nodesOf at hdet ⊢
  simp only [V3.cell, if_true] at hdet ⊢
  refine Reproduces.of_inverse (fun i k => ?_) fun k => ?_
  · fin_cases i; fin_cases k
    simp [edges, upd2]
    exact mul_inv_cancel₀ hdet
  · fin_cases k
    simp [upd2]

theorem gradient2_ok (hc : cell < cfg.d0) (h1 : cfg.d1 = 3) (h2 : cfg.d2 = 2) (hg : cell < g.d0)
    (hg1 : g.d1 = 3) (hg2 : g.d2 = 2) (hv : cell < vol.length) :
    ∃ g' vol', computeGradient2 abs cell g cfg vol = .ok (g', vol') ∧
      GradResult 2 cell cfg g g' vol vol' := by
  have hr : ∀ n i, n < 3 → i < 2 → vrd3 cfg cell n i = .ok (cfg.e cell n i) := fun n i hn hi =>
    vrd3_ok hc (by omega) (by omega)
  have hw : ∀ f n i a, n < 3 → i < 2 → vwr3 (g.cell cell f) cell n i a =
      .ok (g.cell cell (upd2 f n i a)) := fun f n i a hn hi => vwr3_cell hg (by omega) (by omega)
  have hwv : ∀ a, wr vol cell a = .ok (vol.set cell a) := fun a => by simp [wr, hv]
  generalize hf : g.e cell = f
  have hself : g = g.cell cell f := by rw [← hf, V3.cell_self]
  refine ⟨_, _, by
    conv_lhs => rw [hself]
    simp (disch := omega) only [computeGradient2, hr, hw, hwv, Res.ok_bind, Res.pure_eq]
    rfl, ?_⟩
  refine ⟨⟨rfl, rfl, rfl⟩, fun c hcc => by simp [V3.cell, hcc], by rw [edges_det2]; rfl, fun hdet => ?_⟩
  rw [edges_det2] at hdet
  unfold nodesOf at hdet ⊢
  simp only [V3.cell, if_true] at hdet ⊢
  generalize cfg.e cell = x at hdet ⊢
  have hd : (x 0 0 - x 2 0) * (x 1 1 - x 2 1) - (x 1 0 - x 2 0) * (x 0 1 - x 2 1) ≠ 0 := hdet
  generalize hD : (x 0 0 - x 2 0) * (x 1 1 - x 2 1) - (x 1 0 - x 2 0) * (x 0 1 - x 2 1) = D at hd ⊢
  refine Reproduces.of_inverse (fun i k => ?_) fun k => ?_
  · fin_cases i <;> fin_cases k <;> simp [edges, upd2, Fin.sum_univ_succ] <;> field_simp <;>
      first | ring1 | (rw [← hD]; ring1)
  · fin_cases k <;> simp [upd2, Fin.sum_univ_succ]

theorem gradient3_ok (hc : cell < cfg.d0) (h1 : cfg.d1 = 4) (h2 : cfg.d2 = 3) (hg : cell < g.d0)
    (hg1 : g.d1 = 4) (hg2 : g.d2 = 3) (hv : cell < vol.length) :
    ∃ g' vol', computeGradient3 abs cell g cfg vol = .ok (g', vol') ∧
      GradResult 3 cell cfg g g' vol vol' := by
  have hr : ∀ n i, n < 4 → i < 3 → vrd3 cfg cell n i = .ok (cfg.e cell n i) := fun n i hn hi =>
    vrd3_ok hc (by omega) (by omega)
  have hw : ∀ f n i a, n < 4 → i < 3 → vwr3 (g.cell cell f) cell n i a =
      .ok (g.cell cell (upd2 f n i a)) := fun f n i a hn hi => vwr3_cell hg (by omega) (by omega)
  have hwv : ∀ a, wr vol cell a = .ok (vol.set cell a) := fun a => by simp [wr, hv]
  generalize hf : g.e cell = f
  have hself : g = g.cell cell f := by rw [← hf, V3.cell_self]
  refine ⟨_, _, by
    conv_lhs => rw [hself]
    simp (disch := omega) only [computeGradient3, hr, hw, hwv, Res.ok_bind, Res.pure_eq]
    rfl, ?_⟩
  refine ⟨⟨rfl, rfl, rfl⟩, fun c hcc => by simp [V3.cell, hcc], by rw [edges_det3]; rfl, fun hdet => ?_⟩
  rw [edges_det3] at hdet
  unfold nodesOf at hdet ⊢
  simp only [V3.cell, if_true] at hdet ⊢
  generalize cfg.e cell = x at hdet ⊢
  have hd : detj3 (x 0 0 - x 3 0) (x 1 0 - x 3 0) (x 2 0 - x 3 0) (x 0 1 - x 3 1) (x 1 1 - x 3 1)
      (x 2 1 - x 3 1) (x 0 2 - x 3 2) (x 1 2 - x 3 2) (x 2 2 - x 3 2) ≠ 0 := hdet
  generalize hD : detj3 (x 0 0 - x 3 0) (x 1 0 - x 3 0) (x 2 0 - x 3 0) (x 0 1 - x 3 1) (x 1 1 - x 3 1)
      (x 2 1 - x 3 1) (x 0 2 - x 3 2) (x 1 2 - x 3 2) (x 2 2 - x 3 2) = D at hd ⊢
  refine Reproduces.of_inverse (fun i k => ?_) fun k => ?_
  · fin_cases i <;> fin_cases k <;> simp [edges, upd2, Fin.sum_univ_succ] <;> field_simp <;>
      first | ring1 | (rw [← hD, detj3]; ring1)
  · fin_cases k <;> simp [upd2, Fin.sum_univ_succ] <;> ring

end Functors

end Plato
