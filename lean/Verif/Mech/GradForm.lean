import Verif.Simplex.Workset
import Verif.Mech.Cell

/-!
# Closed form of the gradient functor over any scalar type
-/

namespace Plato.Mech
open Finset

section Forms
variable {R : Type} [CommRing R]

/-- Edge vectors from the last node: coordinate `i`, node `n`. -/
def edge (d : Nat) (X : Nat → Nat → R) (i n : Nat) : R := X n i - X d i

/-- Determinant of the edge vectors. -/
def detForm (d : Nat) (X : Nat → Nat → R) : R :=
  let j := edge d X
  match d with
  | 1 => j 0 0
  | 2 => j 0 0 * j 1 1 - j 0 1 * j 1 0
  | 3 => detj3 (j 0 0) (j 0 1) (j 0 2) (j 1 0) (j 1 1) (j 1 2) (j 2 0) (j 2 1) (j 2 2)
  | _ => 0

/-- Adjugate of the matrix of edge vectors. -/
def cofForm (d : Nat) (X : Nat → Nat → R) (n k : Nat) : R :=
  let j := edge d X
  match d, n, k with
  | 1, 0, 0 => 1
  | 2, 0, 0 => j 1 1
  | 2, 0, 1 => -j 0 1
  | 2, 1, 0 => -j 1 0
  | 2, 1, 1 => j 0 0
  | 3, 0, 0 => j 1 1 * j 2 2 - j 1 2 * j 2 1
  | 3, 0, 1 => j 0 2 * j 2 1 - j 0 1 * j 2 2
  | 3, 0, 2 => j 0 1 * j 1 2 - j 0 2 * j 1 1
  | 3, 1, 0 => j 1 2 * j 2 0 - j 1 0 * j 2 2
  | 3, 1, 1 => j 0 0 * j 2 2 - j 0 2 * j 2 0
  | 3, 1, 2 => j 0 2 * j 1 0 - j 0 0 * j 1 2
  | 3, 2, 0 => j 1 0 * j 2 1 - j 1 1 * j 2 0
  | 3, 2, 1 => j 0 1 * j 2 0 - j 0 0 * j 2 1
  | 3, 2, 2 => j 0 0 * j 1 1 - j 0 1 * j 1 0
  | _, _, _ => 0

/-- Update of one entry of a matrix. -/
def upd (f : Nat → Nat → R) (n i : Nat) (a : R) : Nat → Nat → R :=
  fun r c => if r = n ∧ c = i then a else f r c

variable [Div R]

/-- Gradients of the basis functions. -/
def gradForm (d : Nat) (X : Nat → Nat → R) (n k : Nat) : R :=
  if n < d then cofForm d X n k / detForm d X else -∑ m ∈ range d, cofForm d X m k / detForm d X

theorem computeGradient_form (fabs : R → R) {d c : Nat} {g cfg : V3 R} {vol : List R}
    (hd : d = 1 ∨ d = 2 ∨ d = 3)
    (hc : c < cfg.d0) (h1 : cfg.d1 = d + 1) (h2 : cfg.d2 = d) (hg : c < g.d0)
    (hg1 : g.d1 = d + 1) (hg2 : g.d2 = d) (hv : c < vol.length) :
    computeGradient fabs d c g cfg vol = .ok (g.cell c (fun n k => if n < d + 1 ∧ k < d then
      gradForm d (cfg.e c) n k else g.e c n k), vol.set c (fabs (detForm d (cfg.e c)))) := by
  have hr : ∀ n i, n < d + 1 → i < d → vrd3 cfg c n i = .ok (cfg.e c n i) := fun n i hn hi =>
    vrd3_ok hc (by omega) (by omega)
  have hw : ∀ f n i a, n < d + 1 → i < d → vwr3 (g.cell c f) c n i a =
      .ok (g.cell c (upd f n i a)) := fun f n i a hn hi =>
    vwr3_cell hg (by omega) (by omega)
  have hwv : ∀ a, wr vol c a = .ok (vol.set c a) := fun a => wr_eq hv
  generalize hf : g.e c = f
  have hself : g = g.cell c f := by rw [← hf, V3.cell_self]
  conv_lhs => rw [hself]
  rcases hd with rfl | rfl | rfl
  · change computeGradient1 fabs c _ cfg vol = _
    simp (disch := omega) only [computeGradient1, hr, hw, hwv, Res.ok_bind, Res.pure_eq]
    congr 3
    funext n k
    rcases Nat.lt_or_ge n 2 with hn | hn <;> rcases Nat.lt_or_ge k 1 with hk | hk
    · interval_cases n <;> interval_cases k <;> simp [upd, gradForm, cofForm, detForm, edge]
    · have : k ≠ 0 := by omega
      simp [upd, this]
    · have : n ≠ 0 ∧ n ≠ 1 ∧ ¬ n < 2 := by omega
      simp [upd, this]
    · have : n ≠ 0 ∧ n ≠ 1 ∧ ¬ n < 2 := by omega
      simp [upd, this]
  · change computeGradient2 fabs c _ cfg vol = _
    simp (disch := omega) only [computeGradient2, hr, hw, hwv, Res.ok_bind, Res.pure_eq]
    congr 3
    funext n k
    rcases Nat.lt_or_ge n 3 with hn | hn <;> rcases Nat.lt_or_ge k 2 with hk | hk
    · interval_cases n <;> interval_cases k <;>
        simp [upd, gradForm, cofForm, detForm, edge, sum_range_succ] <;> ring
    · have : k ≠ 0 ∧ k ≠ 1 ∧ ¬ k < 2 := by omega
      simp [upd, this]
    · have : n ≠ 0 ∧ n ≠ 1 ∧ n ≠ 2 ∧ ¬ n < 3 := by omega
      simp [upd, this]
    · have : n ≠ 0 ∧ n ≠ 1 ∧ n ≠ 2 ∧ ¬ n < 3 := by omega
      simp [upd, this]
  · change computeGradient3 fabs c _ cfg vol = _
    simp (disch := omega) only [computeGradient3, hr, hw, hwv, Res.ok_bind, Res.pure_eq]
    congr 3
    funext n k
    rcases Nat.lt_or_ge n 4 with hn | hn <;> rcases Nat.lt_or_ge k 3 with hk | hk
    · interval_cases n <;> interval_cases k <;>
        simp [upd, gradForm, cofForm, detForm, edge, sum_range_succ] <;> ring
    · have : k ≠ 0 ∧ k ≠ 1 ∧ k ≠ 2 ∧ ¬ k < 3 := by omega
      simp [upd, this]
    · have : n ≠ 0 ∧ n ≠ 1 ∧ n ≠ 2 ∧ n ≠ 3 ∧ ¬ n < 4 := by omega
      simp [upd, this]
    · have : n ≠ 0 ∧ n ≠ 1 ∧ n ≠ 2 ∧ n ≠ 3 ∧ ¬ n < 4 := by omega
      simp [upd, this]

end Forms

/-! ## Over a field: the forms are the gradients of the element -/

section Field
variable {K : Type} [Field K] [LinearOrder K]

/-- The nodes as a matrix indexed by `Fin`. -/
def nodes (d : Nat) (X : Nat → Nat → K) : Fin (d + 1) → Fin d → K := fun n i => X n i

theorem gradForm_reproduces {d : Nat} (hd : d = 1 ∨ d = 2 ∨ d = 3) (X : Nat → Nat → K)
    (hdet : (edges (nodes d X)).det ≠ 0) :
    Reproduces (nodes d X) (fun n k => gradForm d X n k) := by
  let cfg : V3 K := ⟨1, d + 1, d, fun _ => X⟩
  let g : V3 K := ⟨1, d + 1, d, fun _ _ _ => 0⟩
  obtain ⟨g', vol', h, hres⟩ := computeGradient_ok (cell := 0) (g := g) (cfg := cfg) (vol := [0]) hd
    Nat.zero_lt_one rfl rfl Nat.zero_lt_one rfl rfl Nat.zero_lt_one
  rw [computeGradient_form abs hd Nat.zero_lt_one rfl rfl Nat.zero_lt_one rfl rfl Nat.zero_lt_one] at h
  have h' : _ = g' := congrArg Prod.fst (Res.ok.inj h)
  have := hres.grad hdet
  rw [← h'] at this
  have e : (fun (n : Fin (d + 1)) (k : Fin d) => gradForm d X n k) =
      fun (n : Fin (d + 1)) (k : Fin d) => (g.cell 0 (fun n k => if n < d + 1 ∧ k < d then
        gradForm d (cfg.e 0) n k else g.e 0 n k)).e 0 n k := by
    funext n k
    simp only [V3.cell, if_true]
    rw [if_pos ⟨n.2, k.2⟩]
  rw [e]
  exact this

omit [LinearOrder K] in
theorem detForm_eq {d : Nat} (hd : d = 1 ∨ d = 2 ∨ d = 3) (X : Nat → Nat → K) :
    detForm d X = (edges (nodes d X)).det := by
  rcases hd with rfl | rfl | rfl
  · rw [edges_det1]; rfl
  · rw [edges_det2]; rfl
  · rw [edges_det3]; rfl

end Field

end Plato.Mech
