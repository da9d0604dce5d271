import Verif.Material.Stiffness

/-!
# Isotropic and cubic materials (C40)
-/

namespace Plato.Material
open Plato Finset

/-- The parameter list has the number `r` under `name`. -/
def Params.Has (p : Params) (name : String) (r : ℝ) : Prop := p name = some (.scalar r)

theorem Params.Has.get {p : Params} {n : String} {r : ℝ} (h : p.Has n r) : p.get n = .ok r := by
  unfold Params.get; rw [show p n = _ from h]
theorem Params.Has.getParam {p : Params} {n : String} {r : ℝ} (h : p.Has n r) : p.getParam n = .ok r := by
  unfold Params.getParam; rw [show p n = _ from h]
theorem Params.Has.getD {p : Params} {n : String} {r : ℝ} (h : p.Has n r) (x : ℝ) : p.getD n x = r := by
  unfold Params.getD; rw [show p n = _ from h]
theorem Params.Has.isParameter {p : Params} {n : String} {r : ℝ} (h : p.Has n r) : p.isParameter n = true := by
  unfold Params.isParameter; rw [show p n = _ from h]; rfl
theorem Params.Has.of_get {p : Params} {n : String} {r : ℝ} (h : p.get n = .ok r) : p.Has n r := by
  unfold Params.get at h
  split at h
  · next r' e => cases h; exact e
  · cases h

/-- The blocks written by the isotropic assignments. -/
theorem assign_iso3 (c v : ℝ) : (assign (zeroStiff 3) (isoEntries 3 c v)).Sat
    (Block3 (c * (1 - v)) (c * v) (c * v) (c * (1 - v)) (c * v) (c * (1 - v))
      (1 / 2 * c * (1 - 2 * v)) (1 / 2 * c * (1 - 2 * v)) (1 / 2 * c * (1 - 2 * v))) := by
  rw [assign_ok _ _ (by simp [isoEntries, zeroStiff, voigt])]
  refine Res.Sat.ok ⟨rfl, rfl, ?_, ?_, ?_, ?_, ?_, ?_⟩ <;> intro e <;>
    simp [stress, zeroStiff, voigt, isoEntries, sum_range_succ]

theorem assign_iso2 (c v : ℝ) : (assign (zeroStiff 2) (isoEntries 2 c v)).Sat
    (Block2 (c * (1 - v)) (c * v) (c * (1 - v)) (1 / 2 * c * (1 - 2 * v))) := by
  rw [assign_ok _ _ (by simp [isoEntries, zeroStiff, voigt])]
  refine Res.Sat.ok ⟨rfl, rfl, ?_, ?_, ?_⟩ <;> intro e <;>
    simp [stress, zeroStiff, voigt, isoEntries, sum_range_succ]

theorem assign_iso1 (c v : ℝ) : (assign (zeroStiff 1) (isoEntries 1 c v)).Sat (Block1 (c * (1 - v))) := by
  rw [assign_ok _ _ (by simp [isoEntries, zeroStiff, voigt])]
  refine Res.Sat.ok ⟨rfl, rfl, ?_⟩
  intro e
  simp [stress, zeroStiff, voigt, isoEntries]

/-- Lamé constant and shear modulus. -/
noncomputable def lame (E v : ℝ) : ℝ := E * v / ((1 + v) * (1 - 2 * v))
noncomputable def shear (E v : ℝ) : ℝ := E / (2 * (1 + v))

theorem iso_consts {E v : ℝ} (hv : 1 + v ≠ 0) (hv2 : 1 - 2 * v ≠ 0) :
    isoCoeff E v * (1 - v) = lame E v + 2 * shear E v ∧ isoCoeff E v * v = lame E v ∧
    1 / 2 * isoCoeff E v * (1 - 2 * v) = shear E v := by
  unfold isoCoeff lame shear
  obtain ⟨w, hw⟩ : ∃ w, w = 1 - 2 * v := ⟨_, rfl⟩
  rw [← hw] at hv2 ⊢
  refine ⟨?_, ?_, ?_⟩ <;> field_simp
  rw [hw]; ring

theorem bulk_eq {E v : ℝ} (hv : 1 + v ≠ 0) (hv2 : 1 - 2 * v ≠ 0) :
    3 * lame E v + 2 * shear E v = E / (1 - 2 * v) := by
  unfold lame shear
  obtain ⟨w, hw⟩ : ∃ w, w = 1 - 2 * v := ⟨_, rfl⟩
  rw [← hw] at hv2 ⊢
  field_simp
  rw [hw]; ring

theorem bulk2_eq {E v : ℝ} (hv : 1 + v ≠ 0) (hv2 : 1 - 2 * v ≠ 0) :
    lame E v + shear E v = E / (2 * ((1 + v) * (1 - 2 * v))) := by
  unfold lame shear
  obtain ⟨w, hw⟩ : ∃ w, w = 1 - 2 * v := ⟨_, rfl⟩
  rw [← hw] at hv2 ⊢
  field_simp
  rw [hw]; ring

/-- The isotropic assignments are the law of Hooke. -/
theorem assign_hooke {d : Nat} (hd : d = 1 ∨ d = 2 ∨ d = 3) {E v : ℝ} (hv : 1 + v ≠ 0) (hv2 : 1 - 2 * v ≠ 0) :
    (assign (zeroStiff d) (isoEntries d (isoCoeff E v) v)).Sat fun C =>
      IsStiffness d C ∧ Hooke d (lame E v) (shear E v) C := by
  obtain ⟨e1, e2, e3⟩ := iso_consts (E := E) hv hv2
  rcases hd with rfl | rfl | rfl
  · refine (assign_iso1 _ _).mono fun C H => ⟨H.stiffness, fun e t ht => ?_⟩
    have ht' : t < 1 := ht
    interval_cases t
    simp [H.s0, e1]; ring
  · refine (assign_iso2 _ _).mono fun C H => ⟨H.stiffness, fun e t ht => ?_⟩
    have ht' : t < 3 := ht
    interval_cases t <;> simp only [H.s0, H.s1, H.s2, e1, e2, e3, sum_range_succ, range_zero, sum_empty,
      Nat.reduceLT, if_true, if_false, Nat.lt_irrefl] <;> ring
  · refine (assign_iso3 _ _).mono fun C H => ⟨H.stiffness, fun e t ht => ?_⟩
    have ht' : t < 6 := ht
    interval_cases t <;> simp only [H.s0, H.s1, H.s2, H.s3, H.s4, H.s5, e1, e2, e3, sum_range_succ, range_zero,
      sum_empty, Nat.reduceLT, if_true, if_false, Nat.lt_irrefl] <;> ring

/-- **C40**: the isotropic material is accepted when both constants are numbers, its stiffness is symmetric
and the law of Hooke holds, in the plane as plane strain. -/
theorem C40_isotropic {d : Nat} (hd : d = 1 ∨ d = 2 ∨ d = 3) {p : Params} {E v : ℝ}
    (hE : p.Has "Youngs Modulus" E) (hp : p.Has "Poissons Ratio" v) (hv : 1 + v ≠ 0) (hv2 : 1 - 2 * v ≠ 0) :
    (isotropic d p).Sat fun M => IsStiffness d M.stiff ∧ Hooke d (lame E v) (shear E v) M.stiff := by
  unfold isotropic
  dsimp only
  rw [hp.get, Res.ok_bind, hE.get, Res.ok_bind]
  exact (assign_hooke hd hv hv2).bind fun C hC => Res.Sat.ok hC

theorem C40_isotropic_numbers {d : Nat} (hd : d = 1 ∨ d = 2 ∨ d = 3) {E v : ℝ} (hv : 1 + v ≠ 0)
    (hv2 : 1 - 2 * v ≠ 0) :
    (isotropicNumbers d E v).Sat fun M => IsStiffness d M.stiff ∧ Hooke d (lame E v) (shear E v) M.stiff := by
  unfold isotropicNumbers
  exact (assign_hooke hd hv hv2).bind fun C hC => Res.Sat.ok hC

theorem isoCoeff'_eq (E v : ℝ) : isoCoeff' E v = isoCoeff E v := by unfold isoCoeff' isoCoeff; ring

theorem C40_isotropic_constant {d : Nat} (hd : d = 1 ∨ d = 2 ∨ d = 3) {p : Params} {E v : ℝ}
    (hE : p.Has "Youngs Modulus" E) (hp : p.Has "Poissons Ratio" v) (hv : 1 + v ≠ 0) (hv2 : 1 - 2 * v ≠ 0) :
    (isoConstant d p).Sat fun C => IsStiffness d C ∧ Hooke d (lame E v) (shear E v) C := by
  unfold isoConstant
  rw [hE.getParam, Res.ok_bind, hp.getParam, Res.ok_bind, isoCoeff'_eq]
  exact assign_hooke hd hv hv2

/-- The custom material with the equation of its documentation is the isotropic one. -/
theorem C40_custom {d : Nat} (hd : d = 1 ∨ d = 2 ∨ d = 3) {p : Params} {E v : ℝ}
    (hE : p.Has "E" E) (hp : p.Has "v" v) (hv : 1 + v ≠ 0) (hv2 : 1 - 2 * v ≠ 0) :
    (custom d (.ok (E / ((1 + v) * (1 - 2 * v)))) p).Sat fun M =>
      IsStiffness d M.stiff ∧ Hooke d (lame E v) (shear E v) M.stiff := by
  unfold custom
  dsimp only
  rw [hp.get, Res.ok_bind, hE.get, Res.ok_bind, Res.ok_bind]
  exact (assign_hooke hd hv hv2).bind fun C hC => Res.Sat.ok hC

/-! ## Consequences of the law of Hooke -/

theorem Hooke.block3 {lam mu : ℝ} {C : V2 ℝ} (hC : IsStiffness 3 C) (H : Hooke 3 lam mu C) :
    Block3 (lam + 2 * mu) lam lam (lam + 2 * mu) lam (lam + 2 * mu) mu mu mu C := by
  refine ⟨hC.rows, hC.cols, ?_, ?_, ?_, ?_, ?_, ?_⟩ <;> intro e <;> rw [H e _ (by decide)] <;>
    simp [sum_range_succ] <;> ring

theorem Hooke.block2 {lam mu : ℝ} {C : V2 ℝ} (hC : IsStiffness 2 C) (H : Hooke 2 lam mu C) :
    Block2 (lam + 2 * mu) lam (lam + 2 * mu) mu C := by
  refine ⟨hC.rows, hC.cols, ?_, ?_, ?_⟩ <;> intro e <;> rw [H e _ (by decide)] <;>
    simp [sum_range_succ] <;> ring

theorem Hooke.block1 {lam mu : ℝ} {C : V2 ℝ} (hC : IsStiffness 1 C) (H : Hooke 1 lam mu C) :
    Block1 (lam + 2 * mu) C := by
  refine ⟨hC.rows, hC.cols, ?_⟩; intro e; rw [H e _ (by decide)]; simp; ring

/-- **C40**: in three dimensions the law of Hooke inverts the compliance relations with Young's modulus and
Poisson's ratio. -/
theorem C40_isotropic_compliance {E v : ℝ} (hE : E ≠ 0) (hv : 1 + v ≠ 0) (hv2 : 1 - 2 * v ≠ 0) {C : V2 ℝ}
    (H : Hooke 3 (lame E v) (shear E v) C) (e : Nat → ℝ) :
    (e 0 = (stress C e 0 - v * (stress C e 1 + stress C e 2)) / E ∧
     e 1 = (stress C e 1 - v * (stress C e 0 + stress C e 2)) / E ∧
     e 2 = (stress C e 2 - v * (stress C e 0 + stress C e 1)) / E) ∧
    ∀ t, 3 ≤ t → t < 6 → e t = stress C e t / (E / (2 * (1 + v))) := by
  constructor
  · rw [H e 0 (by decide), H e 1 (by decide), H e 2 (by decide)]
    simp only [sum_range_succ, range_zero, sum_empty, Nat.reduceLT, if_true, lame, shear]
    obtain ⟨w, hw⟩ : ∃ w, w = 1 - 2 * v := ⟨_, rfl⟩
    rw [← hw] at hv2 ⊢
    refine ⟨?_, ?_, ?_⟩ <;> field_simp <;> rw [hw] <;> ring
  · intro t h1 h2
    rw [H e t h2, if_neg (by omega), shear]
    field_simp

/-- **C40**: an isotropic stiffness in three dimensions is positive definite exactly for a positive Young's
modulus and a Poisson's ratio between -1 and 1/2. -/
theorem C40_isotropic_definite {E v : ℝ} (hv : 1 + v ≠ 0) (hv2 : 1 - 2 * v ≠ 0) {C : V2 ℝ} (hC : IsStiffness 3 C)
    (H : Hooke 3 (lame E v) (shear E v) C) : Definite 3 C ↔ 0 < E ∧ -1 < v ∧ v < 1 / 2 := by
  have B := H.block3 hC
  constructor
  · intro h
    have h1 : 0 < shear E v := by
      have := h (fun t => if t = 3 then 1 else 0) ⟨3, by decide, by simp⟩
      rw [B.work] at this
      simpa using this
    have h2 : 0 < 3 * lame E v + 2 * shear E v := by
      have := h (fun t => if t < 3 then 1 else 0) ⟨0, by decide, by simp⟩
      rw [B.work] at this
      simp at this
      linarith
    rw [bulk_eq hv hv2] at h2
    unfold shear at h1
    rcases lt_or_gt_of_ne hv2 with hn | hn
    · have hE : E < 0 := by
        by_contra hE
        exact absurd h2 (not_lt.2 (div_nonpos_of_nonneg_of_nonpos (not_lt.1 hE) hn.le))
      have : E / (2 * (1 + v)) < 0 := div_neg_of_neg_of_pos hE (by linarith)
      linarith
    · have hE : 0 < E := by
        by_contra hE
        exact absurd h2 (not_lt.2 (div_nonpos_of_nonpos_of_nonneg (not_lt.1 hE) hn.le))
      refine ⟨hE, ?_, by linarith⟩
      by_contra hv'
      have : E / (2 * (1 + v)) ≤ 0 := div_nonpos_of_nonneg_of_nonpos hE.le (by linarith)
      linarith
  · rintro ⟨hE, h1, h2⟩ e ⟨t, ht, he⟩
    have hmu : 0 < shear E v := div_pos hE (by linarith)
    have hk : 0 < 3 * lame E v + 2 * shear E v := by
      rw [bulk_eq hv hv2]
      exact div_pos hE (by linarith)
    rw [B.work]
    generalize lame E v = lam at *
    generalize shear E v = mu at *
    have e' : (lam + 2 * mu) * e 0 ^ 2 + (lam + 2 * mu) * e 1 ^ 2 + (lam + 2 * mu) * e 2 ^ 2 +
        2 * lam * (e 0 * e 1) + 2 * lam * (e 0 * e 2) + 2 * lam * (e 1 * e 2) +
        (mu * e 3 ^ 2 + mu * e 4 ^ 2 + mu * e 5 ^ 2) =
        (3 * lam + 2 * mu) / 3 * (e 0 + e 1 + e 2) ^ 2 +
        2 * mu / 3 * ((e 0 - e 1) ^ 2 + (e 0 - e 2) ^ 2 + (e 1 - e 2) ^ 2) +
        mu * (e 3 ^ 2 + e 4 ^ 2 + e 5 ^ 2) := by ring
    rw [e']
    have ht' : t < 6 := ht
    by_contra hn
    have p1 : 0 ≤ (3 * lam + 2 * mu) / 3 * (e 0 + e 1 + e 2) ^ 2 := by positivity
    have p2 : 0 ≤ 2 * mu / 3 * ((e 0 - e 1) ^ 2 + (e 0 - e 2) ^ 2 + (e 1 - e 2) ^ 2) := by positivity
    have p3 : 0 ≤ mu * (e 3 ^ 2 + e 4 ^ 2 + e 5 ^ 2) := by positivity
    have q1 : e 0 + e 1 + e 2 = 0 := by
      by_contra h
      have : 0 < (3 * lam + 2 * mu) / 3 * (e 0 + e 1 + e 2) ^ 2 := by positivity
      linarith
    have q2 : (e 0 - e 1) ^ 2 + (e 0 - e 2) ^ 2 + (e 1 - e 2) ^ 2 ≤ 0 := by
      by_contra h
      have : 0 < 2 * mu / 3 * ((e 0 - e 1) ^ 2 + (e 0 - e 2) ^ 2 + (e 1 - e 2) ^ 2) :=
        mul_pos (by linarith) (not_le.1 h)
      linarith
    have q3 : e 3 ^ 2 + e 4 ^ 2 + e 5 ^ 2 ≤ 0 := by
      by_contra h
      have : 0 < mu * (e 3 ^ 2 + e 4 ^ 2 + e 5 ^ 2) := mul_pos hmu (not_le.1 h)
      linarith
    have z : ∀ x y z : ℝ, x ^ 2 + y ^ 2 + z ^ 2 ≤ 0 → x = 0 ∧ y = 0 ∧ z = 0 := by
      intro x y z h
      have := sq_nonneg x; have := sq_nonneg y; have := sq_nonneg z
      exact ⟨pow_eq_zero_iff (two_ne_zero) |>.1 (by linarith), pow_eq_zero_iff (two_ne_zero) |>.1 (by linarith),
        pow_eq_zero_iff (two_ne_zero) |>.1 (by linarith)⟩
    obtain ⟨a1, a2, a3⟩ := z _ _ _ q2
    obtain ⟨b1, b2, b3⟩ := z _ _ _ q3
    apply he
    interval_cases t
    · linarith
    · linarith
    · linarith
    · exact b1
    · exact b2
    · exact b3

/-- **C40**: in the plane and on the line the same constants suffice. -/
theorem C40_isotropic_definite_low {E v : ℝ} (hE : 0 < E) (h1 : -1 < v) (h2 : v < 1 / 2) {C : V2 ℝ} :
    (IsStiffness 2 C → Hooke 2 (lame E v) (shear E v) C → Definite 2 C) ∧
    (IsStiffness 1 C → Hooke 1 (lame E v) (shear E v) C → Definite 1 C) := by
  have hmu : 0 < shear E v := div_pos hE (by linarith)
  have hk : 0 < lame E v + shear E v := by
    rw [bulk2_eq (by linarith) (by linarith)]
    exact div_pos hE (mul_pos two_pos (mul_pos (by linarith) (by linarith)))
  constructor
  · intro hC H e ⟨t, ht, he⟩
    have B := H.block2 hC
    rw [B.work]
    have hq := (quad2 (a := lame E v + 2 * shear E v) (b := lame E v) (f := lame E v + 2 * shear E v)).1
      ⟨by linarith, by nlinarith⟩
    have ht' : t < 3 := ht
    by_cases h01 : e 0 ≠ 0 ∨ e 1 ≠ 0
    · have := hq _ _ h01
      have : 0 ≤ shear E v * e 2 ^ 2 := by positivity
      linarith
    · push Not at h01
      have he2 : e 2 ≠ 0 := by
        interval_cases t
        · exact absurd h01.1 he
        · exact absurd h01.2 he
        · exact he
      rw [h01.1, h01.2]
      simp only [ne_eq, OfNat.ofNat_ne_zero, not_false_eq_true, zero_pow, mul_zero, add_zero, zero_add]
      positivity
  · intro hC H e ⟨t, ht, he⟩
    have B := H.block1 hC
    have ht' : t < 1 := ht
    interval_cases t
    rw [B.work]
    have : 0 < lame E v + 2 * shear E v := by linarith
    positivity

/-- **C40**: the plane and the uniaxial stiffness are the restrictions of the spatial one to strains in the
plane (Voigt order 11, 22, 12) and along the line. -/
theorem C40_plane_strain {lam mu : ℝ} {C3 C2 C1 : V2 ℝ} (H3 : Hooke 3 lam mu C3) (H2 : Hooke 2 lam mu C2)
    (H1 : Hooke 1 lam mu C1) (e : Nat → ℝ) (h2 : e 2 = 0) :
    (stress C2 (fun t => if t = 2 then e 5 else e t) 0 = stress C3 e 0 ∧
     stress C2 (fun t => if t = 2 then e 5 else e t) 1 = stress C3 e 1 ∧
     stress C2 (fun t => if t = 2 then e 5 else e t) 2 = stress C3 e 5) ∧
    (e 1 = 0 → stress C1 e 0 = stress C3 e 0) := by
  rw [H3 e 0 (by decide), H3 e 1 (by decide), H3 e 5 (by decide), H1 e 0 (by decide), H2 _ 0 (by decide),
    H2 _ 1 (by decide), H2 _ 2 (by decide)]
  simp [sum_range_succ, h2]
  intro h; simp [h]

/-! ## Cubic materials -/

theorem assign_cubic3 (a b g : ℝ) : (assign (zeroStiff 3) (cubicEntries 3 a b g)).Sat
    (Block3 a b b a b a g g g) := by
  rw [assign_ok _ _ (by simp [cubicEntries, zeroStiff, voigt])]
  refine Res.Sat.ok ⟨rfl, rfl, ?_, ?_, ?_, ?_, ?_, ?_⟩ <;> intro e <;>
    simp [stress, zeroStiff, voigt, cubicEntries, sum_range_succ]

theorem assign_cubic2 (a b g : ℝ) : (assign (zeroStiff 2) (cubicEntries 2 a b g)).Sat (Block2 a b a g) := by
  rw [assign_ok _ _ (by simp [cubicEntries, zeroStiff, voigt])]
  refine Res.Sat.ok ⟨rfl, rfl, ?_, ?_, ?_⟩ <;> intro e <;>
    simp [stress, zeroStiff, voigt, cubicEntries, sum_range_succ]

theorem assign_cubic1 (a b g : ℝ) : (assign (zeroStiff 1) (cubicEntries 1 a b g)).Sat (Block1 a) := by
  rw [assign_ok _ _ (by simp [cubicEntries, zeroStiff, voigt])]
  refine Res.Sat.ok ⟨rfl, rfl, ?_⟩
  intro e
  simp [stress, zeroStiff, voigt, cubicEntries]

/-- **C40**: cubic material in three dimensions: the three constants, symmetric, and positive definite
exactly when `C44 > 0`, `C11 > C12` and `C11 + 2 C12 > 0`. -/
theorem C40_cubic3 {p : Params} {a b g : ℝ} (ha : p.Has "C11" a) (hb : p.Has "C12" b) (hg : p.Has "C44" g) :
    (cubic 3 p).Sat fun M => IsStiffness 3 M.stiff ∧ Block3 a b b a b a g g g M.stiff ∧
      (Definite 3 M.stiff ↔ 0 < g ∧ b < a ∧ 0 < a + 2 * b) := by
  unfold cubic
  simp only [show ¬ (3 : Nat) = 1 by decide, if_false, ha.get, hb.get, hg.get, Res.ok_bind]
  refine (assign_cubic3 a b g).bind fun C B => Res.Sat.ok ⟨B.stiffness, B, ?_, ?_⟩
  · intro h
    refine ⟨?_, ?_, ?_⟩
    · have := h (fun t => if t = 3 then 1 else 0) ⟨3, by decide, by simp⟩
      rw [B.work] at this
      simpa using this
    · have := h (fun t => if t = 0 then 1 else if t = 1 then -1 else 0) ⟨0, by decide, by simp⟩
      rw [B.work] at this
      simp at this
      linarith
    · have := h (fun t => if t < 3 then 1 else 0) ⟨0, by decide, by simp⟩
      rw [B.work] at this
      simp at this
      linarith
  · rintro ⟨h1, h2, h3⟩ e ⟨t, ht, he⟩
    rw [B.work]
    have ht' : t < 6 := ht
    have p3 : 0 ≤ g * e 3 ^ 2 + g * e 4 ^ 2 + g * e 5 ^ 2 := by positivity
    by_cases hn : e 0 ≠ 0 ∨ e 1 ≠ 0 ∨ e 2 ≠ 0
    · have hab : 0 < a + b := by linarith
      have hd := sub_pos.2 h2
      have := quad3 (a := a) (b := b) (c := b) (f := a) (g := b) (h := a) (by linarith)
        (by nlinarith) (by
          have : a * (a * a - b ^ 2) - b * (b * a - b * b) + b * (b * b - a * b) = (a - b) ^ 2 * (a + 2 * b) := by ring
          rw [this]; positivity) hn
      linarith
    · push Not at hn
      obtain ⟨h0, h1', h2'⟩ := hn
      rw [h0, h1', h2']
      have : 0 < g * e 3 ^ 2 + g * e 4 ^ 2 + g * e 5 ^ 2 := by
        interval_cases t
        · exact absurd h0 he
        · exact absurd h1' he
        · exact absurd h2' he
        all_goals positivity
      linarith

/-- **C40**: cubic material in two dimensions. -/
theorem C40_cubic2 {p : Params} {a b g : ℝ} (ha : p.Has "C11" a) (hb : p.Has "C12" b) (hg : p.Has "C44" g) :
    (cubic 2 p).Sat fun M => IsStiffness 2 M.stiff ∧ Block2 a b a g M.stiff ∧
      (Definite 2 M.stiff ↔ 0 < g ∧ b < a ∧ 0 < a + b) := by
  unfold cubic
  simp only [show ¬ (2 : Nat) = 1 by decide, if_false, ha.get, hb.get, hg.get, Res.ok_bind]
  refine (assign_cubic2 a b g).bind fun C B => Res.Sat.ok ⟨B.stiffness, B, ?_, ?_⟩
  · intro h
    refine ⟨?_, ?_, ?_⟩
    · have := h (fun t => if t = 2 then 1 else 0) ⟨2, by decide, by simp⟩
      rw [B.work] at this
      simpa using this
    · have := h (fun t => if t = 0 then 1 else if t = 1 then -1 else 0) ⟨0, by decide, by simp⟩
      rw [B.work] at this
      simp at this
      linarith
    · have := h (fun t => if t < 2 then 1 else 0) ⟨0, by decide, by simp⟩
      rw [B.work] at this
      simp at this
      linarith
  · rintro ⟨h1, h2, h3⟩ e ⟨t, ht, he⟩
    rw [B.work]
    have ht' : t < 3 := ht
    by_cases hn : e 0 ≠ 0 ∨ e 1 ≠ 0
    · have := (quad2 (a := a) (b := b) (f := a)).1 ⟨by linarith, by nlinarith⟩ _ _ hn
      have : 0 ≤ g * e 2 ^ 2 := by positivity
      linarith
    · push Not at hn
      rw [hn.1, hn.2]
      have he2 : e 2 ≠ 0 := by
        interval_cases t
        · exact absurd hn.1 he
        · exact absurd hn.2 he
        · exact he
      simp only [ne_eq, OfNat.ofNat_ne_zero, not_false_eq_true, zero_pow, mul_zero, add_zero, zero_add]
      positivity

/-- **C40**: cubic material in one dimension needs only `C11`. -/
theorem C40_cubic1 {p : Params} {a : ℝ} (ha : p.Has "C11" a) :
    (cubic 1 p).Sat fun M => IsStiffness 1 M.stiff ∧ Block1 a M.stiff ∧ (Definite 1 M.stiff ↔ 0 < a) := by
  unfold cubic
  simp only [if_true, ha.get, Res.ok_bind, Res.pure_eq]
  refine (assign_cubic1 a 0 0).bind fun C B => Res.Sat.ok ⟨B.stiffness, B, ?_, ?_⟩
  · intro h
    have := h (fun _ => 1) ⟨0, by decide, by simp⟩
    rw [B.work] at this
    simpa using this
  · rintro h1 e ⟨t, ht, he⟩
    have ht' : t < 1 := ht
    interval_cases t
    rw [B.work]
    positivity

end Plato.Material
