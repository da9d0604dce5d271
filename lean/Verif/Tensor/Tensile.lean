import Verif.Tensor.TensileModel
import Verif.Tensor.Eigen
import Verif.Mech.ElasticForm

/-!
# C112: tensile energy density
-/

namespace Plato.Tensor
open Finset Plato Plato.Mech

/-! ## Specification -/

/-- Strain tensor of a cell: symmetric part of the gradient of the displacements `u n i`. -/
noncomputable def strainTensor (d : Nat) (u X : Nat → Nat → ℝ) (i j : Nat) : ℝ :=
  (fieldGrad d u (gradForm d X) i j + fieldGrad d u (gradForm d X) j i) / 2

/-- Square of the norm of a tensor. -/
def normSq (d : Nat) (A : Nat → Nat → ℝ) : ℝ := ∑ i ∈ range d, ∑ j ∈ range d, A i j ^ 2

/-- Quadratic form of a tensor: stretch in the direction `v`. -/
def quad (d : Nat) (A : Nat → Nat → ℝ) (v : Nat → ℝ) : ℝ := ∑ i ∈ range d, ∑ j ∈ range d, v i * A i j * v j

/-- Elastic energy density of an isotropic material. -/
noncomputable def elasticDensity (lambda mu : ℝ) (d : Nat) (A : Nat → Nat → ℝ) : ℝ :=
  mu * normSq d A + lambda / 2 * (∑ i ∈ range d, A i i) ^ 2

/-- The part of it due to tension, from the principal strains. -/
noncomputable def tensileOf (lambda mu : ℝ) (d : Nat) (p : Nat → ℝ) : ℝ :=
  mu * ∑ i ∈ range d, max (p i) 0 ^ 2 + lambda / 2 * max (∑ i ∈ range d, p i) 0 ^ 2

/-! ## The density -/

theorem tensileDensity_ok {d cell : Nat} {p : V2 ℝ} {lambda mu : ℝ} {out : List ℝ} (h0 : cell < p.d0) (h1 : d ≤ p.d1)
    (ho : cell < out.length) :
    tensileDensity d cell p lambda mu out = .ok (out.set cell (tensileOf lambda mu d (p.e cell))) := by
  unfold tensileDensity
  have key := forRange_eq (n := d) (body := fun k (s : ℝ × ℝ) => do
    let a ← vrd2 p cell k
    pure (if a ≥ 0 then s.1 + a * a * mu else s.1, s.2 + a))
    (fun k => (mu * ∑ i ∈ range k, max (p.e cell i) 0 ^ 2, ∑ i ∈ range k, p.e cell i)) (by
      intro k hk
      rw [vrd2_ok h0 (by omega), Res.ok_bind, Res.pure_eq, sum_range_succ, sum_range_succ]
      dsimp only
      congr 2
      split_ifs with h
      · rw [max_eq_left h]; ring
      · rw [max_eq_right (not_le.1 h).le]; ring)
  simp only [sum_range_zero, mul_zero] at key
  rw [key, Res.ok_bind]
  dsimp only
  rw [wr_eq ho]
  congr 2
  unfold tensileOf
  split_ifs with h
  · rw [max_eq_left h]; ring
  · rw [max_eq_right (not_le.1 h).le]; ring

/-- **C112, the density** for given principal strains: only the entry of the cell is written. -/
theorem C112_density {d cell : Nat} {p : V2 ℝ} {lambda mu : ℝ} {out : List ℝ} (h0 : cell < p.d0) (h1 : d ≤ p.d1)
    (ho : cell < out.length) :
    (tensileDensity d cell p lambda mu out).Sat fun r => r.length = out.length ∧
      at0 r cell = tensileOf lambda mu d (p.e cell) ∧ ∀ c, c ≠ cell → at0 r c = at0 out c := by
  rw [tensileDensity_ok h0 h1 ho, Res.sat_ok]
  refine ⟨List.length_set, by rw [at0_set ho, if_pos rfl], fun c hc => ?_⟩
  rw [at0_set ho, if_neg hc]

/-! ## Principal strains -/

/-- What is used of the values computed for the strain tensor `A`. -/
structure Principal (d : Nat) (A : Nat → Nat → ℝ) (p : Nat → ℝ) : Prop where
  trace : ∑ i ∈ range d, p i = ∑ i ∈ range d, A i i
  norm : ∑ i ∈ range d, p i ^ 2 ≤ normSq d A
  compress : (∀ v, quad d A v ≤ 0) → ∀ i, i < d → p i ≤ 0
  tension : (∀ v, 0 ≤ quad d A v) → ∀ i, i < d → 0 ≤ p i
  space : d = 3 → ∃ err, normSq 3 A = ∑ i ∈ range 3, p i ^ 2 + 2 * err ∧
    (err ≤ (2 / 3) ^ 6 * (A 0 1 ^ 2 + A 0 2 ^ 2 + A 1 2 ^ 2) ∨ err ≤ 3 / 10 ^ 30)
  plane : d = 2 → 0 ≤ A 0 1 → p 0 * p 1 = A 0 0 * A 1 1 - A 0 1 ^ 2
  shear : d = 2 → A 0 1 ≤ 0 → p 0 = A 0 0 ∧ p 1 = A 1 1

/-- Tensor of the Voigt components of a strain. -/
noncomputable def tens (d : Nat) (v : Nat → ℝ) (i j : Nat) : ℝ := if i = j then v i else v (voigtIndex d i j) / 2

theorem tens_strain {d : Nat} (hd : d = 1 ∨ d = 2 ∨ d = 3) (u X : Nat → Nat → ℝ) {i j : Nat} (hi : i < d) (hj : j < d) :
    tens d (voigtStrain d u (gradForm d X)) i j = strainTensor d u X i j := by
  unfold strainTensor
  rcases hd with rfl | rfl | rfl <;> interval_cases i <;> interval_cases j <;>
    simp [tens, voigtStrain, voigtIndex, voigtPair] <;> ring

theorem quad_congr {d : Nat} {A B : Nat → Nat → ℝ} (h : ∀ i j, i < d → j < d → A i j = B i j) (v : Nat → ℝ) :
    quad d A v = quad d B v :=
  sum_congr rfl fun i hi => sum_congr rfl fun j hj => by rw [h i j (mem_range.1 hi) (mem_range.1 hj)]

theorem normSq_congr {d : Nat} {A B : Nat → Nat → ℝ} (h : ∀ i j, i < d → j < d → A i j = B i j) :
    normSq d A = normSq d B :=
  sum_congr rfl fun i hi => sum_congr rfl fun j hj => by rw [h i j (mem_range.1 hi) (mem_range.1 hj)]

theorem Principal.congr {d : Nat} {A B : Nat → Nat → ℝ} {p : Nat → ℝ} (h : ∀ i j, i < d → j < d → A i j = B i j)
    (hp : Principal d A p) : Principal d B p := by
  refine ⟨?_, ?_, ?_, ?_, ?_, ?_, ?_⟩
  · rw [hp.trace]; exact sum_congr rfl fun i hi => h i i (mem_range.1 hi) (mem_range.1 hi)
  · rw [← normSq_congr h]; exact hp.norm
  · intro hv; exact hp.compress fun v => by rw [quad_congr h]; exact hv v
  · intro hv; exact hp.tension fun v => by rw [quad_congr h]; exact hv v
  · rintro rfl
    rw [← normSq_congr h, ← h 0 1 (by omega) (by omega), ← h 0 2 (by omega) (by omega), ← h 1 2 (by omega) (by omega)]
    exact hp.space rfl
  · rintro rfl
    rw [← h 0 1 (by omega) (by omega), ← h 0 0 (by omega) (by omega), ← h 1 1 (by omega) (by omega)]
    exact hp.plane rfl
  · rintro rfl
    rw [← h 0 1 (by omega) (by omega), ← h 0 0 (by omega) (by omega), ← h 1 1 (by omega) (by omega)]
    exact hp.shear rfl

theorem vwr2_ext {y r : V2 ℝ} {i j : Nat} {a : ℝ} (h : vwr2 y i j a = .ok r) : r.d0 = y.d0 ∧ r.d1 = y.d1 := by
  unfold vwr2 at h
  split at h
  · cases h; exact ⟨rfl, rfl⟩
  · cases h

theorem principal3 {cell : Nat} {voigt eig : V2 ℝ} (h0 : cell < voigt.d0) (h1 : 6 ≤ voigt.d1) (h2 : cell < eig.d0)
    (h3 : 3 ≤ eig.d1) :
    (eigenvalues3 6 cell voigt eig true).Sat fun r => Principal 3 (tens 3 (voigt.e cell)) (r.e cell) := by
  obtain ⟨r, Q, D, er, hQ, hD, hs, hr, -, ho⟩ := C36_similar h0 h1 h2 h3 true 6
  rw [er, Res.sat_ok]
  set A := voigt3 (voigt.e cell) true with hA
  have hT : ∀ i j : Fin 3, A i j = tens 3 (voigt.e cell) i j := by
    intro i j
    fin_cases i <;> fin_cases j <;> simp [hA, voigt3, tens, voigtIndex] <;> ring
  have hAs : A.transpose = A := by
    ext i j
    fin_cases i <;> fin_cases j <;> simp [hA, voigt3]
  have hQ' : Q * Q.transpose = 1 := mul_eq_one_comm.1 hQ
  have htr : D.trace = A.trace := by
    rw [hD, Matrix.trace_mul_comm, ← Matrix.mul_assoc, hQ', Matrix.one_mul]
  have hfr : (D * D).trace = (A * A).trace := by
    have e : D * D = Q.transpose * (A * A) * Q := by
      rw [hD]
      calc Q.transpose * A * Q * (Q.transpose * A * Q) = Q.transpose * A * (Q * Q.transpose) * A * Q := by
            simp only [Matrix.mul_assoc]
        _ = _ := by rw [hQ']; simp only [Matrix.mul_assoc, Matrix.mul_one, Matrix.one_mul]
    rw [e, Matrix.trace_mul_comm, ← Matrix.mul_assoc, hQ', Matrix.one_mul]
  have hsym : ∀ i j, D i j = D j i := fun i j => congrFun (congrFun hs j) i
  have hsymA : ∀ i j, A i j = A j i := fun i j => congrFun (congrFun hAs j) i
  have t00 := hT 0 0
  have t11 := hT 1 1
  have t22 := hT 2 2
  have t01 := hT 0 1
  have t02 := hT 0 2
  have t12 := hT 1 2
  have t10 := hT 1 0
  have t20 := hT 2 0
  have t21 := hT 2 1
  have r0 : r.e cell 0 = D 0 0 := hr 0
  have r1 : r.e cell 1 = D 1 1 := hr 1
  have r2 : r.e cell 2 = D 2 2 := hr 2
  simp only [Fin.val_zero, Fin.val_one, Fin.val_two, Fin.isValue] at t00 t11 t22 t01 t02 t12 t10 t20 t21
  have hn : normSq 3 (tens 3 (voigt.e cell)) = ∑ i ∈ range 3, r.e cell i ^ 2 + 2 * offDiag D := by
    have e1 : (A * A).trace = normSq 3 (tens 3 (voigt.e cell)) := by
      simp only [Matrix.trace, Matrix.diag, Matrix.mul_apply, Fin.sum_univ_three, normSq, sum_range_succ, sum_range_zero,
        ← t00, ← t11, ← t22, ← t01, ← t02, ← t12, ← t10, ← t20, ← t21]
      rw [hsymA 1 0, hsymA 2 0, hsymA 2 1]
      ring
    rw [← e1, ← hfr]
    simp only [Matrix.trace, Matrix.diag, Matrix.mul_apply, Fin.sum_univ_three, sum_range_succ, sum_range_zero,
      r0, r1, r2, offDiag]
    rw [hsym 1 0, hsym 2 0, hsym 2 1]
    ring
  have hq : ∀ i : Fin 3, D i i = quad 3 (tens 3 (voigt.e cell)) fun k => if h : k < 3 then Q ⟨k, h⟩ i else 0 := by
    intro i
    rw [hD]
    simp only [Matrix.mul_apply, Matrix.transpose_apply, Fin.sum_univ_three, quad, sum_range_succ, sum_range_zero,
      ← t00, ← t11, ← t22, ← t01, ← t02, ← t12, ← t10, ← t20, ← t21]
    simp only [show (0 : Nat) < 3 by omega, show (1 : Nat) < 3 by omega, show (2 : Nat) < 3 by omega, dif_pos]
    have f0 : (⟨0, by omega⟩ : Fin 3) = 0 := rfl
    have f1 : (⟨1, by omega⟩ : Fin 3) = 1 := rfl
    have f2 : (⟨2, by omega⟩ : Fin 3) = 2 := rfl
    rw [f0, f1, f2]
    ring
  have ho0 : 0 ≤ offDiag D := by unfold offDiag; positivity
  refine ⟨?_, ?_, ?_, ?_, ?_, by omega, by omega⟩
  · simp only [sum_range_succ, sum_range_zero, r0, r1, r2, ← t00, ← t11, ← t22]
    simp only [Matrix.trace, Matrix.diag, Fin.sum_univ_three] at htr
    linarith
  · rw [hn]; linarith
  · intro hv i hi
    rw [show r.e cell i = D ⟨i, hi⟩ ⟨i, hi⟩ from hr ⟨i, hi⟩, hq]
    exact hv _
  · intro hv i hi
    rw [show r.e cell i = D ⟨i, hi⟩ ⟨i, hi⟩ from hr ⟨i, hi⟩, hq]
    exact hv _
  · intro _
    refine ⟨offDiag D, hn, ?_⟩
    have e : offDiag A = tens 3 (voigt.e cell) 0 1 ^ 2 + tens 3 (voigt.e cell) 0 2 ^ 2 + tens 3 (voigt.e cell) 1 2 ^ 2 := by
      rw [offDiag, t01, t02, t12]
    rw [← e]
    exact ho

theorem principal2 {cell : Nat} {voigt eig : V2 ℝ} (h0 : cell < voigt.d0) (h1 : 3 ≤ voigt.d1) (h2 : cell < eig.d0)
    (h3 : 2 ≤ eig.d1) :
    (eigenvalues2 cell voigt eig true).Sat fun r => Principal 2 (tens 2 (voigt.e cell)) (r.e cell) := by
  obtain ⟨r, er, hp, hn⟩ := eigenvalues2_eq h0 h1 h2 h3 true
  rw [er, Res.sat_ok]
  set A := tens 2 (voigt.e cell) with hA
  have a00 : A 0 0 = voigt.e cell 0 := by simp [hA, tens]
  have a11 : A 1 1 = voigt.e cell 1 := by simp [hA, tens]
  have a01 : A 0 1 = voigt.e cell 2 / 2 := by simp [hA, tens, voigtIndex]
  have a10 : A 1 0 = voigt.e cell 2 / 2 := by simp [hA, tens, voigtIndex]
  simp only [Matrix.trace_fin_two, Matrix.det_fin_two, voigt2, Matrix.of_apply, Matrix.cons_val', Matrix.cons_val_zero,
    Matrix.cons_val_one, Matrix.cons_val_fin_one, if_true] at hp
  have hp' : 0 ≤ A 0 1 → r.e cell 0 + r.e cell 1 = A 0 0 + A 1 1 ∧
      r.e cell 0 * r.e cell 1 = A 0 0 * A 1 1 - A 0 1 ^ 2 := by
    intro h
    obtain ⟨x, y⟩ := hp (by rw [a01] at h; linarith)
    rw [x, y, a00, a11, a01]
    exact ⟨rfl, by ring⟩
  have hn' : A 0 1 ≤ 0 → r.e cell 0 = A 0 0 ∧ r.e cell 1 = A 1 1 := by
    intro h
    rw [a00, a11]
    exact hn (by rw [a01] at h; linarith)
  have hs : A 1 0 = A 0 1 := by rw [a01, a10]
  have hquad : ∀ v, quad 2 A v = v 0 ^ 2 * A 0 0 + 2 * v 0 * v 1 * A 0 1 + v 1 ^ 2 * A 1 1 := by
    intro v
    simp only [quad, sum_range_succ, sum_range_zero, hs]
    ring
  have hnorm : normSq 2 A = A 0 0 ^ 2 + 2 * A 0 1 ^ 2 + A 1 1 ^ 2 := by
    simp only [normSq, sum_range_succ, sum_range_zero, hs]
    ring
  have key : ∀ p q : ℝ, p + q = A 0 0 + A 1 1 → p * q = A 0 0 * A 1 1 - A 0 1 ^ 2 →
      p ^ 2 + q ^ 2 = A 0 0 ^ 2 + 2 * A 0 1 ^ 2 + A 1 1 ^ 2 := by
    intro p q x y
    linear_combination (p + q + A 0 0 + A 1 1) * x - 2 * y
  have diag : ∀ s : ℝ, (∀ v : Nat → ℝ, 0 ≤ s * quad 2 A v) →
      0 ≤ s * A 0 0 ∧ 0 ≤ s * A 1 1 ∧ 0 ≤ s ^ 2 * (A 0 0 * A 1 1 - A 0 1 ^ 2) := by
    intro s hv
    have v0 := hv fun k => if k = 0 then 1 else 0
    have v1 := hv fun k => if k = 0 then 0 else 1
    simp only [hquad, if_true, one_ne_zero, if_false] at v0 v1
    have e0 : 0 ≤ s * A 0 0 := by linarith
    have e1 : 0 ≤ s * A 1 1 := by linarith
    refine ⟨e0, e1, ?_⟩
    have hv' : ∀ x y : ℝ, 0 ≤ s * (x ^ 2 * A 0 0 + 2 * x * y * A 0 1 + y ^ 2 * A 1 1) := by
      intro x y
      have := hv fun k => if k = 0 then x else y
      simpa only [hquad, if_true, one_ne_zero, if_false] using this
    rcases eq_or_lt_of_le e0 with h | h
    · have hb : s * A 0 1 = 0 := by
        by_contra hb
        have hx : ∀ y z : ℝ, y ≠ 0 → ∃ x, 2 * x * y = -(z + 1) := fun y z hy => ⟨-(z + 1) / (2 * y), by field_simp⟩
        obtain ⟨x, hx⟩ := hx (s * A 0 1) (s * A 1 1) hb
        have e : s * (x ^ 2 * A 0 0 + 2 * x * 1 * A 0 1 + 1 ^ 2 * A 1 1) = -1 := by
          linear_combination (-x ^ 2) * h + hx
        linarith [hv' x 1]
      have : s ^ 2 * (A 0 0 * A 1 1 - A 0 1 ^ 2) = 0 := by
        linear_combination (-(s * A 1 1)) * h - s * A 0 1 * hb
      exact this.ge
    · have := hv' (-(s * A 0 1)) (s * A 0 0)
      have e : s * ((-(s * A 0 1)) ^ 2 * A 0 0 + 2 * (-(s * A 0 1)) * (s * A 0 0) * A 0 1 + (s * A 0 0) ^ 2 * A 1 1) =
          (s * A 0 0) * (s ^ 2 * (A 0 0 * A 1 1 - A 0 1 ^ 2)) := by ring
      rw [e] at this
      exact nonneg_of_mul_nonneg_right this h
  refine ⟨?_, ?_, ?_, ?_, by omega, fun _ h => (hp' h).2, fun _ h => hn' h⟩
  · simp only [sum_range_succ, sum_range_zero, zero_add]
    rcases le_total 0 (A 0 1) with h | h
    · exact (hp' h).1
    · rw [(hn' h).1, (hn' h).2]
  · rw [hnorm]
    simp only [sum_range_succ, sum_range_zero, zero_add]
    rcases le_total 0 (A 0 1) with h | h
    · exact (key _ _ (hp' h).1 (hp' h).2).le
    · rw [(hn' h).1, (hn' h).2]
      nlinarith [sq_nonneg (A 0 1)]
  · intro hv i hi
    obtain ⟨d0, d1, d2⟩ := diag (-1) fun v => by linarith [hv v]
    rcases le_total 0 (A 0 1) with h | h
    · obtain ⟨x, y⟩ := hp' h
      have hpq : 0 ≤ r.e cell 0 * r.e cell 1 := by rw [y]; linarith
      have hsum : r.e cell 0 + r.e cell 1 ≤ 0 := by rw [x]; linarith
      interval_cases i
      · by_contra hc
        have hc := not_le.1 hc
        nlinarith
      · by_contra hc
        have hc := not_le.1 hc
        nlinarith
    · interval_cases i
      · rw [(hn' h).1]; linarith
      · rw [(hn' h).2]; linarith
  · intro hv i hi
    obtain ⟨d0, d1, d2⟩ := diag 1 fun v => by linarith [hv v]
    rcases le_total 0 (A 0 1) with h | h
    · obtain ⟨x, y⟩ := hp' h
      have hpq : 0 ≤ r.e cell 0 * r.e cell 1 := by rw [y]; linarith
      have hsum : 0 ≤ r.e cell 0 + r.e cell 1 := by rw [x]; linarith
      interval_cases i
      · by_contra hc
        have hc := not_le.1 hc
        nlinarith
      · by_contra hc
        have hc := not_le.1 hc
        nlinarith
    · interval_cases i
      · rw [(hn' h).1]; linarith
      · rw [(hn' h).2]; linarith

theorem principal1 {cell : Nat} {voigt eig : V2 ℝ} (h0 : cell < voigt.d0) (h1 : 1 ≤ voigt.d1) (h2 : cell < eig.d0)
    (h3 : 1 ≤ eig.d1) :
    (eigenvalues1 cell voigt eig true).Sat fun r => Principal 1 (tens 1 (voigt.e cell)) (r.e cell) := by
  obtain ⟨r, er, hr⟩ := C36_eigenvalues1 h0 h1 h2 h3 true
  rw [er, Res.sat_ok]
  have e : tens 1 (voigt.e cell) 0 0 = r.e cell 0 := by rw [hr]; simp [tens]
  refine ⟨by simp [e], by simp [normSq, e], ?_, ?_, by omega, by omega, by omega⟩
  · intro hv i hi
    have := hv fun _ => 1
    simp only [quad, sum_range_one, e] at this
    interval_cases i
    linarith
  · intro hv i hi
    have := hv fun _ => 1
    simp only [quad, sum_range_one, e] at this
    interval_cases i
    linarith

theorem bind_ok_elim {α β : Type} {x : Res α} {f : α → Res β} {b : β} (h : (x >>= f) = .ok b) :
    ∃ a, x = .ok a ∧ f a = .ok b := by
  rcases x with a | m | _
  · exact ⟨a, rfl, h⟩
  · cases h
  · cases h

theorem eigenvaluesOf_ext {d cell : Nat} {voigt eig r : V2 ℝ} (h : eigenvaluesOf d cell voigt eig = .ok r) :
    r.d0 = eig.d0 ∧ r.d1 = eig.d1 := by
  unfold eigenvaluesOf at h
  split at h
  · unfold eigenvalues1 at h
    obtain ⟨a, -, h⟩ := bind_ok_elim h
    exact vwr2_ext h
  · unfold eigenvalues2 at h
    obtain ⟨a, -, h⟩ := bind_ok_elim h
    obtain ⟨b, -, h⟩ := bind_ok_elim h
    obtain ⟨c, -, h⟩ := bind_ok_elim h
    obtain ⟨y, h1, h⟩ := bind_ok_elim h
    have h1 := vwr2_ext h1
    have h := vwr2_ext h
    exact ⟨h.1.trans h1.1, h.2.trans h1.2⟩
  · unfold eigenvalues3 at h
    obtain ⟨a, -, h⟩ := bind_ok_elim h
    obtain ⟨b, -, h⟩ := bind_ok_elim h
    obtain ⟨y, h1, h⟩ := bind_ok_elim h
    obtain ⟨z, h2, h⟩ := bind_ok_elim h
    have h1 := vwr2_ext h1
    have h2 := vwr2_ext h2
    have h := vwr2_ext h
    exact ⟨h.1.trans (h2.1.trans h1.1), h.2.trans (h2.2.trans h1.2)⟩
  · cases h

theorem eigenvaluesOf_ok {d cell : Nat} {voigt eig : V2 ℝ} (hd : d = 1 ∨ d = 2 ∨ d = 3) (h0 : cell < voigt.d0)
    (h1 : numVoigt d ≤ voigt.d1) (h2 : cell < eig.d0) (h3 : d ≤ eig.d1) :
    (eigenvaluesOf d cell voigt eig).Sat fun r => r.d0 = eig.d0 ∧ r.d1 = eig.d1 ∧
      Principal d (tens d (voigt.e cell)) (r.e cell) := by
  have key : (eigenvaluesOf d cell voigt eig).Sat fun r => Principal d (tens d (voigt.e cell)) (r.e cell) := by
    rcases hd with rfl | rfl | rfl
    · exact principal1 h0 h1 h2 h3
    · exact principal2 h0 h1 h2 h3
    · exact principal3 h0 h1 h2 h3
  obtain ⟨r, er, hr⟩ := key
  exact ⟨r, er, (eigenvaluesOf_ext er).1, (eigenvaluesOf_ext er).2, hr⟩

/-! ## The measure -/

/-- Extents of the worksets. -/
structure TWs (d nc : Nat) (state : V2 ℝ) (config : V3 ℝ) : Prop where
  u0 : state.d0 = nc
  u1 : (d + 1) * d ≤ state.d1
  x0 : config.d0 = nc
  x1 : config.d1 = d + 1
  x2 : config.d2 = d

/-- Strain tensor of a cell of the worksets. -/
noncomputable abbrev cellStrain (d : Nat) (state : V2 ℝ) (config : V3 ℝ) (c : Nat) : Nat → Nat → ℝ :=
  strainTensor d (fun n i => state.e c (n * d + i)) (config.e c)

theorem call_ok (fabs : ℝ → ℝ) {P : Tensile} (hd : P.d = 1 ∨ P.d = 2 ∨ P.d = 3) {nc : Nat} {state : V2 ℝ}
    {config : V3 ℝ} (hw : TWs P.d nc state config) {order : List Nat} (hs : IsSchedule order nc) {result : List ℝ}
    (hr : result.length = nc) :
    (P.call fabs order state config result).Sat fun r => r.length = nc ∧ ∀ c, c < nc →
      ∃ p, Principal P.d (cellStrain P.d state config c) p ∧ at0 r c = tensileOf P.lambda P.mu P.d p := by
  subst hr
  unfold Tensile.call
  refine Res.Sat.bind (parFor_sched hs (fun D (s : TViews × List ℝ) => s.1.vol.length = result.length ∧
    (s.1.strain.d0 = result.length ∧ s.1.strain.d1 = numVoigt P.d) ∧ (∀ c, c ∉ D → ∀ t, s.1.strain.e c t = 0) ∧
    (s.1.eig.d0 = result.length ∧ s.1.eig.d1 = P.d) ∧
    (s.1.grad.d0 = result.length ∧ s.1.grad.d1 = P.d + 1 ∧ s.1.grad.d2 = P.d) ∧ s.2.length = result.length ∧
    ∀ c ∈ D, ∃ p, Principal P.d (cellStrain P.d state config c) p ∧ at0 s.2 c = tensileOf P.lambda P.mu P.d p)
    ⟨by simp [TViews.new], ⟨rfl, rfl⟩, fun _ _ _ => rfl, ⟨rfl, rfl⟩, ⟨rfl, rfl, rfl⟩, rfl, by simp⟩ ?_) ?_
  · rintro D c ⟨⟨v, e, eig, g⟩, r⟩ hc hD - ⟨i1, ⟨i2, i3⟩, i4, ⟨i5, i6⟩, ⟨i7, i8, i9⟩, i10, i11⟩
    dsimp only at i1 i2 i3 i4 i5 i6 i7 i8 i9 i10 i11
    have hx0 := hw.x0
    have hu0 := hw.u0
    unfold Tensile.cellBody
    dsimp only
    rw [computeGradient_form fabs hd (by omega) hw.x1 hw.x2 (by omega) i8 i9 (by omega), Res.ok_bind]
    dsimp only
    generalize hg : g.cell c _ = g'
    have hG : ∀ n k, n < P.d + 1 → k < P.d → g'.e c n k = gradForm P.d (config.e c) n k := by
      intro n k hn hk
      rw [← hg]
      simp only [V3.cell, if_true]
      rw [if_pos ⟨hn, hk⟩]
    have g0 : g'.d0 = result.length := by rw [← hg]; exact i7
    have g1 : g'.d1 = P.d + 1 := by rw [← hg]; exact i8
    have g2 : g'.d2 = P.d := by rw [← hg]; exact i9
    clear hg
    rw [strain_ok (s := e) (u := state) (g := g') (c := c) hd (by omega) i3 (by omega) hw.u1 (by omega) g1 g2 le_rfl,
      Res.ok_bind]
    generalize he : e.row c _ = e'
    have hE : ∀ t, t < numVoigt P.d → e'.e c t = voigtStrain P.d (fun n i => state.e c (n * P.d + i))
        (gradForm P.d (config.e c)) t := by
      intro t ht
      rw [← he]
      simp only [V2.row, if_true]
      rw [if_pos ht, i4 c hD, ite_self, zero_add]
      exact voigtStrain_congr hd (fun _ _ _ _ => rfl) hG
    have hE' : ∀ q, q ≠ c → e'.e q = e.e q := by
      intro q hq
      rw [← he]
      simp [V2.row, hq]
    have e0 : e'.d0 = result.length := by rw [← he]; exact i2
    have e1 : e'.d1 = numVoigt P.d := by rw [← he]; exact i3
    clear he
    refine Res.Sat.bind (eigenvaluesOf_ok hd (by omega) e1.ge (by omega) i6.ge) fun p ⟨p0, p1, p2⟩ => ?_
    rw [tensileDensity_ok (by omega) (by omega) (by omega), Res.ok_bind, Res.pure_eq, Res.sat_ok]
    have hdv : P.d ≤ numVoigt P.d := by rcases hd with h | h | h <;> rw [h] <;> decide
    refine ⟨by rw [List.length_set]; exact i1, ⟨e0, e1⟩, fun q hq t => ?_, ⟨p0.trans i5, p1.trans i6⟩, ⟨g0, g1, g2⟩,
      by rw [List.length_set]; exact i10, fun q hq => ?_⟩
    · rw [hE' q fun h => hq (h ▸ mem_insert_self _ _)]
      exact i4 q (fun h => hq (mem_insert_of_mem h)) t
    · dsimp only
      rw [at0_set (by omega)]
      by_cases hqc : q = c
      · subst hqc
        rw [if_pos rfl]
        refine ⟨p.e q, p2.congr fun i j hi hj => ?_, rfl⟩
        unfold cellStrain
        rw [← tens_strain hd _ _ hi hj]
        unfold tens
        split_ifs with h
        · rw [hE i (by omega)]
        · rw [hE _ (voigtIndex_lt hd hi hj)]
      · rw [if_neg hqc]
        exact i11 q ((mem_insert.1 hq).resolve_left hqc)
  · rintro ⟨w, r⟩ ⟨-, -, -, -, -, i10, i11⟩
    show Res.Sat (Res.ok r) _
    rw [Res.sat_ok]
    exact ⟨i10, fun c hc => i11 c (mem_range.2 hc)⟩

/-! ## C112 -/

/-- **C112, other materials** than isotropic ones are refused; the constants of isotropic ones are those of Lamé: shear
modulus positive and bulk modulus positive. -/
theorem C112_constants (d : Nat) (mat : Option (ℝ × ℝ)) :
    (mat = none → ∃ m, Tensile.construct d mat = .err m) ∧
      ∀ E nu, mat = some (E, nu) → 0 < E → -1 < nu → nu < 1 / 2 →
        (Tensile.construct d mat).Sat fun P => P.d = d ∧ 2 * (1 + nu) * P.mu = E ∧
          (1 + nu) * (1 - 2 * nu) * P.lambda = E * nu ∧ 0 < P.mu ∧ 0 < 2 * P.mu + 3 * P.lambda := by
  refine ⟨fun h => ⟨_, by rw [h]; rfl⟩, ?_⟩
  rintro E nu rfl hE h1 h2
  have a : 0 < 1 + nu := by linarith
  have b : 0 < 1 - 2 * nu := by linarith
  unfold Tensile.construct
  rw [Res.sat_ok]
  dsimp only
  have hb := b.ne'
  refine ⟨rfl, by field_simp, ?_, by positivity, ?_⟩
  · generalize h : 1 - 2 * nu = x at *
    field_simp
  have e : 2 * (E / (2 * (1 + nu))) + 3 * (2 * (E / (2 * (1 + nu))) * nu / (1 - 2 * nu)) = E / (1 - 2 * nu) := by
    field_simp
    ring
  rw [e]
  positivity

/-- Cauchy-Schwarz for up to three values. -/
theorem sq_sum_le {d : Nat} (hd : d = 1 ∨ d = 2 ∨ d = 3) (a : Nat → ℝ) :
    (∑ i ∈ range d, a i) ^ 2 ≤ 3 * ∑ i ∈ range d, a i ^ 2 := by
  rcases hd with rfl | rfl | rfl <;> simp only [sum_range_succ, sum_range_zero, zero_add]
  · nlinarith [sq_nonneg (a 0)]
  · nlinarith [sq_nonneg (a 0 - a 1), sq_nonneg (a 0), sq_nonneg (a 1)]
  · nlinarith [sq_nonneg (a 0 - a 1), sq_nonneg (a 0 - a 2), sq_nonneg (a 1 - a 2)]

/-- Parts of both signs: positive and negative part of a sum are bounded by the sums of the parts. -/
theorem part_nonneg {d : Nat} (hd : d = 1 ∨ d = 2 ∨ d = 3) {lambda mu : ℝ} (hm : 0 < mu) (hk : 0 < 2 * mu + 3 * lambda)
    (p : Nat → ℝ) : 0 ≤ tensileOf lambda mu d p := by
  have h1 := sq_sum_le hd fun i => max (p i) 0
  have h2 : max (∑ i ∈ range d, p i) 0 ≤ ∑ i ∈ range d, max (p i) 0 :=
    max_le (sum_le_sum fun i _ => le_max_left _ _) (sum_nonneg fun i _ => le_max_right _ _)
  have h3 : max (∑ i ∈ range d, p i) 0 ^ 2 ≤ (∑ i ∈ range d, max (p i) 0) ^ 2 :=
    pow_le_pow_left₀ (le_max_right _ _) h2 2
  have h4 : 0 ≤ max (∑ i ∈ range d, p i) 0 ^ 2 := sq_nonneg _
  unfold tensileOf
  nlinarith

theorem split_sum (lambda mu : ℝ) (d : Nat) (p : Nat → ℝ) :
    tensileOf lambda mu d p + tensileOf lambda mu d (fun i => -p i) =
      mu * ∑ i ∈ range d, p i ^ 2 + lambda / 2 * (∑ i ∈ range d, p i) ^ 2 := by
  have key : ∀ x : ℝ, max x 0 ^ 2 + max (-x) 0 ^ 2 = x ^ 2 := by
    intro x
    rcases le_total 0 x with h | h
    · rw [max_eq_left h, max_eq_right (by linarith)]; ring
    · rw [max_eq_right h, max_eq_left (by linarith)]; ring
  unfold tensileOf
  rw [sum_neg_distrib]
  have e := key (∑ i ∈ range d, p i)
  have e' : ∑ i ∈ range d, max (p i) 0 ^ 2 + ∑ i ∈ range d, max (-p i) 0 ^ 2 = ∑ i ∈ range d, p i ^ 2 := by
    rw [← sum_add_distrib]
    exact sum_congr rfl fun i _ => key _
  linear_combination mu * e' + lambda / 2 * e

section
variable (fabs : ℝ → ℝ) {P : Tensile} (hd : P.d = 1 ∨ P.d = 2 ∨ P.d = 3) {nc : Nat} {state : V2 ℝ}
  {config : V3 ℝ} (hw : TWs P.d nc state config) {order : List Nat} (hs : IsSchedule order nc) {result : List ℝ}
  (hr : result.length = nc) (hm : 0 < P.mu) (hk : 0 < 2 * P.mu + 3 * P.lambda)
include hd hw hs hr hm hk

/-- **C112, bounds**: in every number of dimensions, for every displacement and schedule, the value is between zero and
the elastic energy density of the cell. -/
theorem C112_bounds : (P.call fabs order state config result).Sat fun r => r.length = nc ∧ ∀ c, c < nc →
    0 ≤ at0 r c ∧ at0 r c ≤ elasticDensity P.lambda P.mu P.d (cellStrain P.d state config c) := by
  refine (call_ok fabs hd hw hs hr).mono fun r ⟨hl, h⟩ => ⟨hl, fun c hc => ?_⟩
  obtain ⟨p, hp, e⟩ := h c hc
  rw [e]
  refine ⟨part_nonneg hd hm hk p, ?_⟩
  have h1 := split_sum P.lambda P.mu P.d p
  have h2 := part_nonneg hd hm hk fun i => -p i
  have h3 := hp.norm
  unfold elasticDensity
  rw [← hp.trace]
  nlinarith

omit hm hk in
/-- **C112, compression**: a cell that is not stretched in any direction has the value zero. -/
theorem C112_compression : (P.call fabs order state config result).Sat fun r => ∀ c, c < nc →
    (∀ v, quad P.d (cellStrain P.d state config c) v ≤ 0) → at0 r c = 0 := by
  refine (call_ok fabs hd hw hs hr).mono fun r ⟨hl, h⟩ c hc hv => ?_
  obtain ⟨p, hp, e⟩ := h c hc
  have hc := hp.compress hv
  rw [e]
  unfold tensileOf
  rw [max_eq_right (sum_nonpos fun i hi => hc i (mem_range.1 hi)),
    sum_eq_zero fun i hi => by rw [max_eq_right (hc i (mem_range.1 hi))]; ring]
  ring

omit hk in
/-- **C112, tension in space**: a cell that is not compressed in any direction has the elastic energy density as value,
up to what the iterations of the eigenvalues leave. -/
theorem C112_tension (h3 : P.d = 3) : (P.call fabs order state config result).Sat fun r => ∀ c, c < nc →
    (∀ v, 0 ≤ quad 3 (cellStrain 3 state config c) v) → ∃ err : ℝ,
      (err ≤ (2 / 3) ^ 6 * (cellStrain 3 state config c 0 1 ^ 2 + cellStrain 3 state config c 0 2 ^ 2 +
        cellStrain 3 state config c 1 2 ^ 2) ∨ err ≤ 3 / 10 ^ 30) ∧
      elasticDensity P.lambda P.mu 3 (cellStrain 3 state config c) - 2 * P.mu * err = at0 r c ∧ 0 ≤ err := by
  refine (call_ok fabs hd hw hs hr).mono fun r ⟨hl, h⟩ c hc hv => ?_
  obtain ⟨p, hp, e⟩ := h c hc
  rw [h3] at hp e
  have ht := hp.tension hv
  obtain ⟨err, he, hb⟩ := hp.space rfl
  refine ⟨err, hb, ?_, by linarith [hp.norm]⟩
  rw [e]
  unfold elasticDensity tensileOf
  have em : ∀ i ∈ range 3, max (p i) 0 ^ 2 = p i ^ 2 := fun i hi => by rw [max_eq_left (ht i (mem_range.1 hi))]
  rw [← hp.trace, max_eq_left (sum_nonneg fun i hi => ht i (mem_range.1 hi)), he, sum_congr rfl em]
  ring

omit hm hk in
/-- **C112, the plane, shear not negative**: the value is that of the eigenvalues of the strain tensor. -/
theorem C112_plane_partial (h2 : P.d = 2) : (P.call fabs order state config result).Sat fun r => ∀ c, c < nc →
    0 ≤ cellStrain 2 state config c 0 1 → ∃ l1 l2 : ℝ,
      (∀ l, IsEigen (!![cellStrain 2 state config c 0 0, cellStrain 2 state config c 0 1;
        cellStrain 2 state config c 0 1, cellStrain 2 state config c 1 1]) l ↔ l = l1 ∨ l = l2) ∧
      l1 + l2 = cellStrain 2 state config c 0 0 + cellStrain 2 state config c 1 1 ∧
      at0 r c = P.mu * (max l1 0 ^ 2 + max l2 0 ^ 2) + P.lambda / 2 * max (l1 + l2) 0 ^ 2 := by
  refine (call_ok fabs hd hw hs hr).mono fun r ⟨hl, h⟩ c hc hv => ?_
  obtain ⟨p, hp, e⟩ := h c hc
  rw [h2] at hp e
  have ht := hp.trace
  simp only [sum_range_succ, sum_range_zero, zero_add] at ht
  refine ⟨p 0, p 1, fun l => isEigen_two ?_ ?_ l, ht, ?_⟩
  · rw [ht, Matrix.trace_fin_two]; rfl
  · rw [hp.plane rfl hv, Matrix.det_fin_two]
    simp only [Matrix.of_apply, Matrix.cons_val', Matrix.cons_val_zero, Matrix.cons_val_one, Matrix.cons_val_fin_one]
    ring
  · rw [e]
    simp only [tensileOf, sum_range_succ, sum_range_zero, zero_add]

omit hk in
/-- **C112 is false in the plane**: a cell in simple shear has the value zero if its shear is negative, and a positive
value for the opposite shear, although one is the mirror image of the other. -/
theorem C112_plane_false (h2 : P.d = 2) : (P.call fabs order state config result).Sat fun r => ∀ c, c < nc →
    cellStrain 2 state config c 0 0 = 0 → cellStrain 2 state config c 1 1 = 0 →
      (cellStrain 2 state config c 0 1 < 0 → at0 r c = 0) ∧
      (0 < cellStrain 2 state config c 0 1 → at0 r c = P.mu * cellStrain 2 state config c 0 1 ^ 2 ∧ 0 < at0 r c) := by
  refine (call_ok fabs hd hw hs hr).mono fun r ⟨hl, h⟩ c hc h00 h11 => ?_
  obtain ⟨p, hp, e⟩ := h c hc
  rw [h2] at hp e
  have ht := hp.trace
  simp only [sum_range_succ, sum_range_zero, zero_add, h00, h11, add_zero] at ht
  simp only [tensileOf, sum_range_succ, sum_range_zero, zero_add, ht, max_self] at e
  refine ⟨fun hv => ?_, fun hv => ?_⟩
  · obtain ⟨x, y⟩ := hp.shear rfl hv.le
    rw [e, x, y, h00, h11]
    simp
  · suffices at0 r c = P.mu * cellStrain 2 state config c 0 1 ^ 2 from ⟨this, by rw [this]; positivity⟩
    have hq := hp.plane rfl hv.le
    rw [h00, h11] at hq
    have e1 : p 1 = -p 0 := by linarith
    have e2 : p 0 ^ 2 = cellStrain 2 state config c 0 1 ^ 2 := by
      rw [e1] at hq
      linarith
    rw [e, e1, ← e2]
    rcases le_total 0 (p 0) with h | h
    · rw [max_eq_left h, max_eq_right (by linarith)]; ring
    · rw [max_eq_right h, max_eq_left (by linarith)]; ring

end

/-! ## Cases that meet the hypotheses -/

/-- A triangle with corners (1,0), (0,1), (0,0), moved by `u = (g y, 0)`. -/
def sheared (g : ℝ) : V2 ℝ := ⟨1, 6, fun _ k => if k = 2 then g else 0⟩

def corner : V3 ℝ := ⟨1, 3, 2, fun _ n k => if n = k then 1 else 0⟩

theorem sheared_strain (g : ℝ) : cellStrain 2 (sheared g) corner 0 0 0 = 0 ∧ cellStrain 2 (sheared g) corner 0 1 1 = 0 ∧
    cellStrain 2 (sheared g) corner 0 0 1 = g / 2 := by
  refine ⟨?_, ?_, ?_⟩ <;>
    simp [cellStrain, strainTensor, fieldGrad, gradForm, cofForm, detForm, edge, sheared, corner, sum_range_succ]

/-- Simple shear of the two signs, computed by the program: zero energy for the one, not for the other. -/
example : (((⟨2, 1, 1⟩ : Tensile).call (fun x => |x|) [0] (sheared (-2)) corner [0]).Sat fun r => at0 r 0 = 0) ∧
    ((⟨2, 1, 1⟩ : Tensile).call (fun x => |x|) [0] (sheared 2) corner [0]).Sat fun r => at0 r 0 = 1 := by
  have hw : ∀ g, TWs 2 1 (sheared g) corner := fun g => ⟨rfl, le_rfl, rfl, rfl, rfl⟩
  have hs : IsSchedule [0] 1 := List.Perm.refl _
  refine ⟨(C112_plane_false (P := ⟨2, 1, 1⟩) _ (by simp) (hw (-2)) hs (result := [0]) rfl (by norm_num)
    rfl).mono fun r h => ?_, (C112_plane_false (P := ⟨2, 1, 1⟩) _ (by simp) (hw 2) hs (result := [0]) rfl (by norm_num)
    rfl).mono fun r h => ?_⟩
  · obtain ⟨a, b, c⟩ := sheared_strain (-2)
    exact (h 0 (by norm_num) a b).1 (by rw [c]; norm_num)
  · obtain ⟨a, b, c⟩ := sheared_strain 2
    rw [((h 0 (by norm_num) a b).2 (by rw [c]; norm_num)).1, c]
    norm_num

/-- A tetrahedron at the axes, stretched by `g` in the first direction. -/
def stretched (g : ℝ) : V2 ℝ := ⟨1, 12, fun _ k => if k = 0 then g else 0⟩

def corner3 : V3 ℝ := ⟨1, 4, 3, fun _ n k => if n = k then 1 else 0⟩

theorem stretched_strain (g : ℝ) (v : Nat → ℝ) : quad 3 (cellStrain 3 (stretched g) corner3 0) v = g * v 0 ^ 2 := by
  simp [quad, cellStrain, strainTensor, fieldGrad, gradForm, cofForm, detForm, detj3, edge, stretched, corner3,
    sum_range_succ]
  ring

/-- Compression gives zero; the hypothesis of the theorem on tension holds for the opposite displacement. -/
example : (((⟨3, 1, 1⟩ : Tensile).call (fun x => |x|) [0] (stretched (-1)) corner3 [5]).Sat fun r => at0 r 0 = 0) ∧
    ∀ v, 0 ≤ quad 3 (cellStrain 3 (stretched 1) corner3 0) v := by
  have hs : IsSchedule [0] 1 := List.Perm.refl _
  refine ⟨(C112_compression (P := ⟨3, 1, 1⟩) (state := stretched (-1)) (config := corner3) _ (by simp)
    ⟨rfl, le_rfl, rfl, rfl, rfl⟩ hs (result := [5]) rfl).mono fun r h => h 0 Nat.zero_lt_one fun v => ?_, fun v => ?_⟩
  · show quad 3 _ v ≤ 0
    rw [stretched_strain]
    nlinarith [sq_nonneg (v 0)]
  · rw [stretched_strain]
    nlinarith [sq_nonneg (v 0)]

/-- Steel-like constants. -/
example : (Tensile.construct 3 (some (200, 3 / 10))).Sat fun P => 0 < P.mu ∧ 0 < 2 * P.mu + 3 * P.lambda :=
  ((C112_constants 3 (some (200, 3 / 10))).2 200 (3 / 10) rfl (by norm_num) (by norm_num) (by norm_num)).mono
    fun _ h => h.2.2.2

end Plato.Tensor
