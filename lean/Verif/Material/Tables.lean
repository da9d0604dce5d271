import Verif.Material.Orthotropic

/-!
# Plane orthotropic materials, tables of constants, and claims the code does not meet (C40)
-/

namespace Plato.Material
open Plato Finset

/-! ## Two and one dimensions -/

/-- Compliance of plane stress. -/
noncomputable def strain2 (Ex Ey Gxy vxy : ℝ) (s : Nat → ℝ) (t : Nat) : ℝ :=
  if t = 0 then s 0 / Ex - vxy * (Ey / Ex) / Ey * s 1
  else if t = 1 then -(vxy / Ex) * s 0 + s 1 / Ey else s 2 / Gxy

theorem orthoStiff2_ok {Ex Ey : ℝ} (Gxy vxy : ℝ) :
    (orthoStiff2 (zeroStiff 2) Ex Ey Gxy vxy).Sat (Block2 (Ex / (1 - vxy * (vxy * (Ey / Ex))))
      (vxy * Ey / (1 - vxy * (vxy * (Ey / Ex)))) (Ey / (1 - vxy * (vxy * (Ey / Ex)))) Gxy) := by
  unfold orthoStiff2
  simp only [vwr2, zeroStiff, voigt, if_true, Nat.reduceLT, and_self, Res.ok_bind, Nat.reduceEqDiff,
    if_false]
  refine Res.Sat.ok ⟨rfl, rfl, ?_, ?_, ?_⟩ <;> intro e <;> simp [stress, sum_range_succ]

/-- **C40**: the plane orthotropic stiffness of accepted constants with strict inequalities inverts the
compliance of plane stress and is positive definite. -/
theorem C40_orthotropic2 {p : Params} {Ex Ey Gxy vxy : ℝ} (hEx : p.Has "Youngs Modulus X" Ex)
    (hEy : p.Has "Youngs Modulus Y" Ey) (hG : p.Has "Shear Modulus XY" Gxy) (hv : p.Has "Poissons Ratio XY" vxy)
    (hx : 0 < Ex) (hy : 0 < Ey) (hg : 0 < Gxy) (hne : vxy ^ 2 ≠ Ex / Ey) {M : Elastic}
    (hM : orthotropic2 p = .ok M) :
    IsStiffness 2 M.stiff ∧ (∀ e t, t < 3 → strain2 Ex Ey Gxy vxy (stress M.stiff e) t = e t) ∧
      Definite 2 M.stiff := by
  unfold orthotropic2 at hM
  dsimp only at hM
  cases hi : orthoInputs 2 p with
  | err m => rw [hi] at hM; cases hM
  | ub => rw [hi] at hM; cases hM
  | ok i =>
  rw [hi, Res.ok_bind] at hM
  cases hs : orthoStability2 p with
  | err m => rw [hs] at hM; cases hM
  | ub => rw [hs] at hM; cases hM
  | ok u =>
  have hle : vxy ^ 2 ≤ Ex / Ey := by
    have H : (orthoStability2 p).Sat fun _ => True := by rw [hs]; exact Res.Sat.ok trivial
    unfold orthoStability2 at H
    simp only [hEx.get, hEy.get, hG.get, hv.get, Res.ok_bind, rejectIf_bind, rejectIf_sat, and_true] at H
    exact (abs_le_sqrt_iff (by positivity)).1 H.2.2.2.1
  rw [hs, Res.ok_bind] at hM
  cases hr : orthoDensity p with
  | err m => rw [hr] at hM; cases hM
  | ub => rw [hr] at hM; cases hM
  | ok r =>
  rw [hr] at hM
  simp only [hEx.get, hEy.get, hG.get, hv.get, Res.ok_bind] at hM
  obtain ⟨C, hC, B⟩ := orthoStiff2_ok (Ex := Ex) (Ey := Ey) Gxy vxy
  rw [show (elasticBase 2 p).stiff = zeroStiff 2 from rfl, hC, Res.ok_bind] at hM
  cases hM
  have hlt : vxy ^ 2 < Ex / Ey := lt_of_le_of_ne hle hne
  have hD : 0 < 1 - vxy * (vxy * (Ey / Ex)) := by
    rw [lt_div_iff₀ hy] at hlt
    have : vxy * (vxy * (Ey / Ex)) = vxy ^ 2 * Ey / Ex := by ring
    rw [this, sub_pos, div_lt_one hx]
    exact hlt
  refine ⟨B.stiffness, ?_, ?_⟩
  · intro e t ht
    unfold strain2
    rw [B.s0, B.s1, B.s2]
    have hD' := hD.ne'
    obtain ⟨D, hDd⟩ : ∃ D, D = 1 - vxy * (vxy * (Ey / Ex)) := ⟨_, rfl⟩
    rw [← hDd] at hD' ⊢
    have key : ∀ x y, D * x = D * y → x = y := fun x y h => mul_left_cancel₀ hD' h
    interval_cases t <;> simp only [if_true, if_false, Nat.reduceEqDiff, one_ne_zero]
    · apply key
      have : D * e 0 = (1 - vxy * (vxy * (Ey / Ex))) * e 0 := by rw [hDd]
      rw [this]
      field_simp
      ring
    · apply key
      have : D * e 1 = (1 - vxy * (vxy * (Ey / Ex))) * e 1 := by rw [hDd]
      rw [this]
      field_simp
      ring
    · field_simp
  · rintro e ⟨t, ht, he⟩
    have ht' : t < 3 := ht
    rw [B.work]
    have hq := (quad2 (a := Ex / (1 - vxy * (vxy * (Ey / Ex)))) (b := vxy * Ey / (1 - vxy * (vxy * (Ey / Ex))))
      (f := Ey / (1 - vxy * (vxy * (Ey / Ex))))).1 ⟨div_pos hx hD, by
        have e1 : Ex * Ey - (vxy * Ey) ^ 2 = Ex * Ey * (1 - vxy * (vxy * (Ey / Ex))) := by field_simp
        rw [div_mul_div_comm, div_pow, ← sq, ← sub_div, e1]
        positivity⟩
    by_cases hn : e 0 ≠ 0 ∨ e 1 ≠ 0
    · have := hq _ _ hn
      have : 0 ≤ Gxy * e 2 ^ 2 := by positivity
      linarith
    · push Not at hn
      rw [hn.1, hn.2]
      have he2 : e 2 ≠ 0 := by
        interval_cases t
        · exact absurd hn.1 he
        · exact absurd hn.2 he
        · exact he
      simp only [ne_eq, OfNat.ofNat_ne_zero, not_false_eq_true, zero_pow, mul_zero, add_zero, zero_add]
      positivity

/-- **C40**: on the line the orthotropic material is the isotropic one. -/
theorem C40_orthotropic1 {p : Params} {E v : ℝ} (hE : p.Has "Youngs Modulus" E) (hp : p.Has "Poissons Ratio" v)
    (hv : 1 + v ≠ 0) (hv2 : 1 - 2 * v ≠ 0) {M : Elastic} (hM : orthotropic1 p = .ok M) :
    IsStiffness 1 M.stiff ∧ Hooke 1 (lame E v) (shear E v) M.stiff := by
  unfold orthotropic1 at hM
  dsimp only at hM
  cases hi : orthoInputs 1 p with
  | err m => rw [hi] at hM; cases hM
  | ub => rw [hi] at hM; cases hM
  | ok i =>
  rw [hi, Res.ok_bind] at hM
  cases hr : orthoDensity p with
  | err m => rw [hr] at hM; cases hM
  | ub => rw [hr] at hM; cases hM
  | ok r =>
  rw [hr] at hM
  simp only [hE.get, hp.get, Res.ok_bind] at hM
  obtain ⟨C, hC, H⟩ := assign_hooke (d := 1) (E := E) (Or.inl rfl) hv hv2
  have : assign (zeroStiff 1) (isoEntries 1 (isoCoeff E v) v) =
      vwr2 (zeroStiff 1) 0 0 (isoCoeff E v * (1 - v)) := by
    unfold assign isoEntries
    rw [if_neg (by decide), if_neg (by decide), List.foldlM_cons]
    cases vwr2 (zeroStiff 1) 0 0 (isoCoeff E v * (1 - v)) <;> rfl
  rw [show (elasticBase 1 p).stiff = zeroStiff 1 from rfl, ← this, hC, Res.ok_bind] at hM
  cases hM
  exact H

/-- **C40**: equal constants in all directions give the isotropic stiffness in three dimensions. -/
theorem C40_orthotropic_isotropic {p q : Params} {E v : ℝ} (hE : 0 < E) (hv : 1 + v ≠ 0) (hv2 : 1 - 2 * v ≠ 0)
    (ho : (⟨E, E, E, shear E v, shear E v, shear E v, v, v, v⟩ : Ortho3).In p)
    (hqE : q.Has "Youngs Modulus" E) (hqv : q.Has "Poissons Ratio" v) {M N : Elastic}
    (hM : orthotropic3 p = .ok M) (hN : isotropic 3 q = .ok N) :
    ∀ i j, i < 6 → j < 6 → M.stiff.e i j = N.stiff.e i j := by
  have hEE : E / E = 1 := div_self hE.ne'
  have hdet : (⟨E, E, E, shear E v, shear E v, shear E v, v, v, v⟩ : Ortho3).det = (1 + v) ^ 2 * (1 - 2 * v) := by
    simp only [Ortho3.det, hEE]; ring
  have hB : Block3 (lame E v + 2 * shear E v) (lame E v) (lame E v) (lame E v + 2 * shear E v) (lame E v)
      (lame E v + 2 * shear E v) (shear E v) (shear E v) (shear E v) M.stiff := by
    unfold orthotropic3 at hM
    dsimp only at hM
    rw [ho.inputs, Res.ok_bind] at hM
    cases hs : orthoStability3 p with
    | err m => rw [hs] at hM; cases hM
    | ub => rw [hs] at hM; cases hM
    | ok u =>
    rw [hs, Res.ok_bind] at hM
    cases hr : orthoDensity p with
    | err m => rw [hr] at hM; cases hM
    | ub => rw [hr] at hM; cases hM
    | ok r =>
    rw [hr] at hM
    simp only [ho.Ex.get, ho.Ey.get, ho.Ez.get, ho.Gxy.get, ho.Gxz.get, ho.Gyz.get, ho.vxy.get, ho.vyz.get,
      ho.vxz.get, Res.ok_bind] at hM
    obtain ⟨C, hC, B⟩ := orthoStiff3_ok (o := ⟨E, E, E, shear E v, shear E v, shear E v, v, v, v⟩) hE hE hE
      (by rw [hdet]; exact mul_ne_zero (pow_ne_zero _ hv) hv2)
    rw [show (elasticBase 3 p).stiff = zeroStiff 3 from rfl, hC, Res.ok_bind] at hM
    cases hM
    have ea : (⟨E, E, E, shear E v, shear E v, shear E v, v, v, v⟩ : Ortho3).a = lame E v + 2 * shear E v := by
      simp only [Ortho3.a, hdet, hEE]
      unfold lame shear
      obtain ⟨w, hw⟩ : ∃ w, w = 1 - 2 * v := ⟨_, rfl⟩
      rw [← hw] at hv2 ⊢
      field_simp
      rw [hw]; ring
    have eb : (⟨E, E, E, shear E v, shear E v, shear E v, v, v, v⟩ : Ortho3).b = lame E v := by
      simp only [Ortho3.b, hdet]
      unfold lame
      obtain ⟨w, hw⟩ : ∃ w, w = 1 - 2 * v := ⟨_, rfl⟩
      rw [← hw] at hv2 ⊢
      field_simp
    have ec : (⟨E, E, E, shear E v, shear E v, shear E v, v, v, v⟩ : Ortho3).c =
        (⟨E, E, E, shear E v, shear E v, shear E v, v, v, v⟩ : Ortho3).b := by
      simp only [Ortho3.b, Ortho3.c]; ring
    have ef : (⟨E, E, E, shear E v, shear E v, shear E v, v, v, v⟩ : Ortho3).f =
        (⟨E, E, E, shear E v, shear E v, shear E v, v, v, v⟩ : Ortho3).a := by
      simp only [Ortho3.f, Ortho3.a]
    have eg : (⟨E, E, E, shear E v, shear E v, shear E v, v, v, v⟩ : Ortho3).g =
        (⟨E, E, E, shear E v, shear E v, shear E v, v, v, v⟩ : Ortho3).b := by
      simp only [Ortho3.b, Ortho3.g, hEE]; ring
    have eh : (⟨E, E, E, shear E v, shear E v, shear E v, v, v, v⟩ : Ortho3).h =
        (⟨E, E, E, shear E v, shear E v, shear E v, v, v, v⟩ : Ortho3).a := by
      simp only [Ortho3.h, Ortho3.a]
    rw [ec, ef, eg, eh, ea, eb] at B
    exact B
  obtain ⟨N', hN', hN1, hN2⟩ := C40_isotropic (d := 3) (by simp) hqE hqv hv hv2
  rw [hN] at hN'
  cases hN'
  have hB2 := hN2.block3 hN1
  intro i j hi hj
  rw [entry_eq M.stiff (by rw [hB.cols]; exact hj), entry_eq N.stiff (by rw [hB2.cols]; exact hj)]
  interval_cases i
  · rw [hB.s0, hB2.s0]
  · rw [hB.s1, hB2.s1]
  · rw [hB.s2, hB2.s2]
  · rw [hB.s3, hB2.s3]
  · rw [hB.s4, hB2.s4]
  · rw [hB.s5, hB2.s5]

/-! ## Tables -/

/-- **C40**: every table of constants read from the input is symmetric. -/
theorem C40_rank4_symmetric {d : Nat} (hd : d = 1 ∨ d = 2 ∨ d = 3) (req : Bool) (pre : String) (p : Params)
    {C : V2 ℝ} (h : rank4 d req pre p = .ok C) : IsStiffness d C := by
  unfold rank4 at h
  simp only at h
  generalize hn : (fun n => if req = true then p.getParam (pre ++ n) else pure (p.getD (pre ++ n) 0)) = need at h
  have hneed : ∀ n, (if req = true then p.getParam (pre ++ n) else pure (p.getD (pre ++ n) 0)) = need n := by
    rw [← hn]; intro n; rfl
  simp only [hneed] at h
  cases h11 : need "11" with
  | err m => rw [h11] at h; cases h
  | ub => rw [h11] at h; cases h
  | ok c11 =>
  rw [h11, Res.ok_bind] at h
  rcases hd with rfl | rfl | rfl
  · simp only [show ¬ (1 : Nat) = 3 by decide, show ¬ (1 : Nat) = 2 by decide, if_false] at h
    rw [assign_ok _ _ (by simp [zeroStiff, voigt])] at h
    cases h
    refine ⟨rfl, rfl, fun i j hi hj => ?_⟩
    have hi' : i < 1 := hi
    have hj' : j < 1 := hj
    interval_cases i; interval_cases j; rfl
  · simp only [show ¬ (2 : Nat) = 3 by decide, if_true, if_false] at h
    cases h33 : need "33" with
    | err m => rw [h33] at h; cases h
    | ub => rw [h33] at h; cases h
    | ok c33 =>
    rw [h33, Res.ok_bind, assign_ok _ _ (by simp [zeroStiff, voigt])] at h
    cases h
    refine ⟨rfl, rfl, fun i j hi hj => ?_⟩
    have hi' : i < 3 := hi
    have hj' : j < 3 := hj
    interval_cases i <;> interval_cases j <;> simp [zeroStiff]
  · simp only [if_true] at h
    cases h44 : need "44" with
    | err m => rw [h44] at h; cases h
    | ub => rw [h44] at h; cases h
    | ok c44 =>
    rw [h44, Res.ok_bind, assign_ok _ _ (by simp [zeroStiff, voigt])] at h
    cases h
    refine ⟨rfl, rfl, fun i j hi hj => ?_⟩
    have hi' : i < 6 := hi
    have hj' : j < 6 := hj
    interval_cases i <;> interval_cases j <;> simp [zeroStiff]

/-- **C40**: the temperature dependent isotropic stiffness in two and three dimensions is the isotropic
stiffness of the Young's modulus at the temperature. -/
theorem C40_isotropic_functor {d : Nat} (hd : d = 2 ∨ d = 3) {p young : Params} {E0 v : ℝ}
    (hE : young.Has "c0" E0) (hp : p.Has "Poissons Ratio" v) (x : ℝ) :
    (isoFunctor d p young).Sat fun F => ∀ i j, i < voigt d → j < voigt d →
      (F.at x i j).Sat fun y => (assign (zeroStiff d) (isoEntries d
        (isoCoeff (E0 + young.getD "c1" 0 * x + young.getD "c2" 0 * x ^ 2) v) v)).Sat fun C => C.e i j = y := by
  unfold isoFunctor
  rw [if_neg (by rcases hd with rfl | rfl <;> decide), hp.getParam, Res.ok_bind, hE.getParam, Res.ok_bind]
  dsimp only
  generalize young.getD "c1" 0 = E1
  generalize young.getD "c2" 0 = E2
  have key : isoCoeff (E0 + E1 * x + E2 * x ^ 2) v = x * isoCoeff' E1 v + isoCoeff' E0 v + x * x * isoCoeff' E2 v := by
    unfold isoCoeff isoCoeff'; ring
  rw [key]
  generalize isoCoeff' E0 v = k0
  generalize isoCoeff' E1 v = k1
  generalize isoCoeff' E2 v = k2
  rcases hd with rfl | rfl
  · refine (assign_iso2 _ _).bind fun C0 B0 => (assign_iso2 _ _).bind fun C1 B1 => (assign_iso2 _ _).bind fun C2 B2 =>
      Res.Sat.ok fun i j hi hj => ?_
    have hi' : i < 3 := hi
    have hj' : j < 3 := hj
    unfold Rank4Fn.at
    rw [show vrd2 C1 i j = .ok (C1.e i j) from by unfold vrd2; rw [if_pos ⟨B1.rows ▸ hi', B1.cols ▸ hj'⟩],
      show vrd2 C0 i j = .ok (C0.e i j) from by unfold vrd2; rw [if_pos ⟨B0.rows ▸ hi', B0.cols ▸ hj'⟩],
      show vrd2 C2 i j = .ok (C2.e i j) from by unfold vrd2; rw [if_pos ⟨B2.rows ▸ hi', B2.cols ▸ hj'⟩]]
    refine Res.Sat.ok ((assign_iso2 _ _).mono fun C B => ?_)
    rw [entry_eq C (by rw [B.cols]; exact hj'), entry_eq C0 (by rw [B0.cols]; exact hj'),
      entry_eq C1 (by rw [B1.cols]; exact hj'), entry_eq C2 (by rw [B2.cols]; exact hj')]
    interval_cases i
    · rw [B.s0, B0.s0, B1.s0, B2.s0]; ring
    · rw [B.s1, B0.s1, B1.s1, B2.s1]; ring
    · rw [B.s2, B0.s2, B1.s2, B2.s2]; ring
  · refine (assign_iso3 _ _).bind fun C0 B0 => (assign_iso3 _ _).bind fun C1 B1 => (assign_iso3 _ _).bind fun C2 B2 =>
      Res.Sat.ok fun i j hi hj => ?_
    have hi' : i < 6 := hi
    have hj' : j < 6 := hj
    unfold Rank4Fn.at
    rw [show vrd2 C1 i j = .ok (C1.e i j) from by unfold vrd2; rw [if_pos ⟨B1.rows ▸ hi', B1.cols ▸ hj'⟩],
      show vrd2 C0 i j = .ok (C0.e i j) from by unfold vrd2; rw [if_pos ⟨B0.rows ▸ hi', B0.cols ▸ hj'⟩],
      show vrd2 C2 i j = .ok (C2.e i j) from by unfold vrd2; rw [if_pos ⟨B2.rows ▸ hi', B2.cols ▸ hj'⟩]]
    refine Res.Sat.ok ((assign_iso3 _ _).mono fun C B => ?_)
    rw [entry_eq C (by rw [B.cols]; exact hj'), entry_eq C0 (by rw [B0.cols]; exact hj'),
      entry_eq C1 (by rw [B1.cols]; exact hj'), entry_eq C2 (by rw [B2.cols]; exact hj')]
    interval_cases i
    · rw [B.s0, B0.s0, B1.s0, B2.s0]; ring
    · rw [B.s1, B0.s1, B1.s1, B2.s1]; ring
    · rw [B.s2, B0.s2, B1.s2, B2.s2]; ring
    · rw [B.s3, B0.s3, B1.s3, B2.s3]; ring
    · rw [B.s4, B0.s4, B1.s4, B2.s4]; ring
    · rw [B.s5, B0.s5, B1.s5, B2.s5]; ring

/-! ## What the code does not meet -/

/-- Parameter lists for examples. -/
def Params.ofList (l : List (String × ℝ)) : Params := fun n => (l.lookup n).map .scalar

/-- Steel-like isotropic constants: all hypotheses of `C40_isotropic` hold. -/
example : (Params.ofList [("Youngs Modulus", 200), ("Poissons Ratio", 3 / 10)]).Has "Youngs Modulus" 200 ∧
    (Params.ofList [("Youngs Modulus", 200), ("Poissons Ratio", 3 / 10)]).Has "Poissons Ratio" (3 / 10) ∧
    (1 : ℝ) + 3 / 10 ≠ 0 ∧ (1 : ℝ) - 2 * (3 / 10) ≠ 0 := by
  refine ⟨by simp [Params.Has, Params.ofList, List.lookup], by simp [Params.Has, Params.ofList, List.lookup], ?_, ?_⟩ <;>
    norm_num

/-- An orthotropic material with strict inequalities. -/
noncomputable def goodOrtho : Ortho3 := ⟨4, 2, 1, 1, 1, 1, 1 / 2, 1 / 4, 1 / 4⟩

/-- Its parameter list. -/
def Ortho3.params (o : Ortho3) : Params := Params.ofList [("Youngs Modulus X", o.Ex), ("Youngs Modulus Y", o.Ey),
  ("Youngs Modulus Z", o.Ez), ("Shear Modulus XY", o.Gxy), ("Shear Modulus XZ", o.Gxz), ("Shear Modulus YZ", o.Gyz),
  ("Poissons Ratio XY", o.vxy), ("Poissons Ratio XZ", o.vxz), ("Poissons Ratio YZ", o.vyz)]

theorem Ortho3.params_in (o : Ortho3) : o.In o.params := by
  constructor <;> simp [Params.Has, Ortho3.params, Params.ofList, List.lookup]

theorem Ortho3.params_density (o : Ortho3) : o.params.isParameter "Mass Density" = false := by
  simp [Params.isParameter, Ortho3.params, Params.ofList, List.lookup]

/-- The hypotheses of `C40_orthotropic3` are met: the list is accepted. -/
example : (orthotropic3 goodOrtho.params).Sat (fun _ => True) ∧ goodOrtho.det ≠ 0 := by
  refine ⟨(C40_orthotropic_accepts goodOrtho.params_in (by norm_num [goodOrtho]) (by norm_num [goodOrtho])
    (by norm_num [goodOrtho]) (by rw [Ortho3.params_density]; simp)).2 ?_, by norm_num [goodOrtho, Ortho3.det]⟩
  constructor <;> norm_num [goodOrtho, Ortho3.det]

/-- **C40 is false** for the constants the code accepts: the message demands a positive shear modulus, but
zero is accepted and the stiffness is not positive definite. -/
theorem C40_zero_shear_false : ∃ p M, orthotropic3 p = .ok M ∧ ¬ Definite 3 M.stiff := by
  let o : Ortho3 := ⟨1, 1, 1, 0, 0, 0, 0, 0, 0⟩
  have ho := o.params_in
  obtain ⟨M, hM, -⟩ := (C40_orthotropic_accepts (o := o) ho (by norm_num [o]) (by norm_num [o]) (by norm_num [o])
    (by rw [Ortho3.params_density]; simp)).2 (by constructor <;> norm_num [o, Ortho3.det])
  refine ⟨_, M, hM, fun hD => ?_⟩
  have hB : Block3 o.a o.b o.c o.f o.g o.h o.Gyz o.Gxz o.Gxy M.stiff := by
    unfold orthotropic3 at hM
    dsimp only at hM
    rw [ho.inputs, Res.ok_bind] at hM
    cases hs : orthoStability3 o.params with
    | err m => rw [hs] at hM; cases hM
    | ub => rw [hs] at hM; cases hM
    | ok u =>
    rw [hs, Res.ok_bind] at hM
    cases hr : orthoDensity o.params with
    | err m => rw [hr] at hM; cases hM
    | ub => rw [hr] at hM; cases hM
    | ok r =>
    rw [hr] at hM
    simp only [ho.Ex.get, ho.Ey.get, ho.Ez.get, ho.Gxy.get, ho.Gxz.get, ho.Gyz.get, ho.vxy.get, ho.vyz.get,
      ho.vxz.get, Res.ok_bind] at hM
    obtain ⟨C, hC, B⟩ := orthoStiff3_ok (o := o) (by norm_num [o]) (by norm_num [o]) (by norm_num [o])
      (by norm_num [o, Ortho3.det])
    rw [show (elasticBase 3 o.params).stiff = zeroStiff 3 from rfl, hC, Res.ok_bind] at hM
    cases hM
    exact B
  have := hD (fun t => if t = 5 then 1 else 0) ⟨5, by decide, by simp⟩
  rw [hB.work] at this
  simp [o] at this

/-- **C40 is false** for the temperature dependent isotropic material on the line: the factor that should
divide the modulus multiplies it, so a constant modulus does not give the constant material. -/
theorem C40_isotropic_functor_line_false : ∃ p young q : Params, ∃ E v : ℝ,
    young.Has "c0" E ∧ p.Has "Poissons Ratio" v ∧ q.Has "Youngs Modulus" E ∧ q.Has "Poissons Ratio" v ∧
    0 < E ∧ -1 < v ∧ v < 1 / 2 ∧
    (isoFunctor 1 p young).Sat fun F => (F.at 0 0 0).Sat fun y =>
      (isoConstant 1 q).Sat fun C => C.e 0 0 ≠ y := by
  refine ⟨Params.ofList [("Poissons Ratio", 1 / 4)], Params.ofList [("c0", 1)],
    Params.ofList [("Youngs Modulus", 1), ("Poissons Ratio", 1 / 4)], 1, 1 / 4, ?_, ?_, ?_, ?_, by norm_num,
    by norm_num, by norm_num, ?_⟩
  · simp [Params.Has, Params.ofList, List.lookup]
  · simp [Params.Has, Params.ofList, List.lookup]
  · simp [Params.Has, Params.ofList, List.lookup]
  · simp [Params.Has, Params.ofList, List.lookup]
  · simp [isoFunctor, isoFunctor1, isoConstant, Params.getParam, Params.getD, Params.ofList, List.lookup,
      assign, zeroStiff, voigt, vwr2, Rank4Fn.at, vrd2, isoEntries, isoCoeff']
    norm_num

/-- **C40 is false** for a mass density given with a cubic material: it is ignored. -/
theorem C40_cubic_density_false {d : Nat} {p : Params} {M : Elastic} (h : cubic d p = .ok M) : M.density = 1 := by
  unfold cubic at h
  dsimp only at h
  cases h1 : p.get "C11" with
  | err m => rw [h1] at h; cases h
  | ub => rw [h1] at h; cases h
  | ok c11 =>
  rw [h1, Res.ok_bind] at h
  have key : ∀ c12 c44, (assign (elasticBase d p).stiff (cubicEntries d c11 c12 c44) >>= fun C =>
      (pure ⟨C, (elasticBase d p).refStrain, (elasticBase d p).density, (elasticBase d p).pressure,
        (elasticBase d p).rayleighA, (elasticBase d p).rayleighB⟩ : Res Elastic)) = .ok M → M.density = 1 := by
    intro c12 c44 h
    cases ha : assign (elasticBase d p).stiff (cubicEntries d c11 c12 c44) with
    | err m => rw [ha] at h; cases h
    | ub => rw [ha] at h; cases h
    | ok C => rw [ha] at h; cases h; rfl
  by_cases hd : d = 1
  · simp only [hd, if_true] at h
    subst hd
    exact key 0 0 h
  · simp only [hd, if_false] at h
    cases h2 : p.get "C12" with
    | err m => rw [h2] at h; cases h
    | ub => rw [h2] at h; cases h
    | ok c12 =>
    rw [h2, Res.ok_bind] at h
    cases h3 : p.get "C44" with
    | err m => rw [h3] at h; cases h
    | ub => rw [h3] at h; cases h
    | ok c44 =>
    rw [h3, Res.ok_bind] at h
    exact key _ _ h

/-- The isotropic material takes the density of the input. -/
theorem C40_isotropic_density {d : Nat} {p : Params} {M : Elastic} {rho : ℝ} (h : isotropic d p = .ok M)
    (hr : p.Has "Mass Density" rho) : M.density = rho := by
  unfold isotropic at h
  dsimp only at h
  cases h1 : p.get "Poissons Ratio" with
  | err m => rw [h1] at h; cases h
  | ub => rw [h1] at h; cases h
  | ok v =>
  rw [h1, Res.ok_bind] at h
  cases h2 : p.get "Youngs Modulus" with
  | err m => rw [h2] at h; cases h
  | ub => rw [h2] at h; cases h
  | ok E =>
  rw [h2, Res.ok_bind] at h
  cases h3 : assign (elasticBase d p).stiff (isoEntries d (isoCoeff E v) v) with
  | err m => rw [h3] at h; cases h
  | ub => rw [h3] at h; cases h
  | ok C =>
  rw [h3] at h
  cases h
  exact hr.getD 1

/-- **C40 is false** for plane materials: isotropic constants given as orthotropic ones are read as plane
stress, while the isotropic material is plane strain. -/
theorem C40_plane_false : ∃ p q : Params, ∃ M N : Elastic, ∃ E v : ℝ,
    p.Has "Youngs Modulus X" E ∧ p.Has "Youngs Modulus Y" E ∧ p.Has "Shear Modulus XY" (shear E v) ∧
    p.Has "Poissons Ratio XY" v ∧ q.Has "Youngs Modulus" E ∧ q.Has "Poissons Ratio" v ∧
    orthotropic2 p = .ok M ∧ isotropic 2 q = .ok N ∧ M.stiff.e 0 0 ≠ N.stiff.e 0 0 := by
  let p := Params.ofList [("Youngs Modulus X", 1), ("Youngs Modulus Y", 1), ("Shear Modulus XY", shear 1 (1 / 4)),
    ("Poissons Ratio XY", 1 / 4)]
  let q := Params.ofList [("Youngs Modulus", 1), ("Poissons Ratio", 1 / 4)]
  have h1 : p.Has "Youngs Modulus X" 1 := by simp [Params.Has, Params.ofList, List.lookup, p]
  have h2 : p.Has "Youngs Modulus Y" 1 := by simp [Params.Has, Params.ofList, List.lookup, p]
  have h3 : p.Has "Shear Modulus XY" (shear 1 (1 / 4)) := by simp [Params.Has, Params.ofList, List.lookup, p]
  have h4 : p.Has "Poissons Ratio XY" (1 / 4) := by simp [Params.Has, Params.ofList, List.lookup, p]
  have h5 : q.Has "Youngs Modulus" 1 := by simp [Params.Has, Params.ofList, List.lookup, q]
  have h6 : q.Has "Poissons Ratio" (1 / 4) := by simp [Params.Has, Params.ofList, List.lookup, q]
  have hi : orthoInputs 2 p = .ok () := by
    apply orthoInputs_ok
    intro n hn
    simp only [show ¬ (2 : Nat) = 3 by decide, if_false, if_true, List.mem_cons, List.not_mem_nil, or_false] at hn
    rcases hn with rfl | rfl | rfl | rfl
    · exact h1.isParameter
    · exact h2.isParameter
    · exact h3.isParameter
    · exact h4.isParameter
  have hs : (orthoStability2 p).Sat fun _ => True := by
    unfold orthoStability2
    simp only [h1.get, h2.get, h3.get, h4.get, Res.ok_bind, rejectIf_bind, rejectIf_sat, and_true]
    norm_num [shear]
  have hd : orthoDensity p = .ok 1 := by
    simp [orthoDensity, Params.isParameter, Params.ofList, List.lookup, p]
  obtain ⟨u, hu, -⟩ := hs
  obtain ⟨C, hC, B⟩ := orthoStiff2_ok (Ex := 1) (Ey := 1) (shear 1 (1 / 4)) (1 / 4)
  obtain ⟨N, hN, hN1, hN2⟩ := C40_isotropic (d := 2) (by simp) h5 h6 (by norm_num) (by norm_num)
  refine ⟨p, q, ⟨C, refStrain 2 p, 1, 1, p.getD "RayleighA" 0, p.getD "RayleighB" 0⟩, N, 1, 1 / 4, h1, h2, h3, h4,
    h5, h6, ?_, hN, ?_⟩
  · unfold orthotropic2
    dsimp only
    rw [hi, Res.ok_bind, hu, Res.ok_bind, hd, Res.ok_bind]
    simp only [h1.get, h2.get, h3.get, h4.get, Res.ok_bind]
    rw [show (elasticBase 2 p).stiff = zeroStiff 2 from rfl, hC, Res.ok_bind]
    rfl
  · have B2 := hN2.block2 hN1
    rw [entry_eq N.stiff (by rw [B2.cols]; decide), B2.s0]
    show C.e 0 0 ≠ _
    rw [entry_eq C (by rw [B.cols]; decide), B.s0]
    norm_num [lame, shear]

end Plato.Material
