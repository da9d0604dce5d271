import Verif.Material.Isotropic

/-!
# Orthotropic materials and tables (C40)
-/

namespace Plato.Material
open Plato Finset

/-! ## Three dimensions -/

/-- The nine constants of an orthotropic material. -/
structure Ortho3 where
  Ex : ℝ
  Ey : ℝ
  Ez : ℝ
  Gxy : ℝ
  Gxz : ℝ
  Gyz : ℝ
  vxy : ℝ
  vxz : ℝ
  vyz : ℝ

/-- The parameter list has these constants. -/
structure Ortho3.In (o : Ortho3) (p : Params) : Prop where
  Ex : p.Has "Youngs Modulus X" o.Ex
  Ey : p.Has "Youngs Modulus Y" o.Ey
  Ez : p.Has "Youngs Modulus Z" o.Ez
  Gxy : p.Has "Shear Modulus XY" o.Gxy
  Gxz : p.Has "Shear Modulus XZ" o.Gxz
  Gyz : p.Has "Shear Modulus YZ" o.Gyz
  vxy : p.Has "Poissons Ratio XY" o.vxy
  vxz : p.Has "Poissons Ratio XZ" o.vxz
  vyz : p.Has "Poissons Ratio YZ" o.vyz

/-- The compliance matrix (normal terms): strain of a stress, with Poisson's ratio `vij` the contraction in
direction `j` of a stress in direction `i`. -/
noncomputable def Ortho3.strain (o : Ortho3) (s : Nat → ℝ) (t : Nat) : ℝ :=
  if t = 0 then s 0 / o.Ex - o.vxy / o.Ex * s 1 - o.vxz / o.Ex * s 2
  else if t = 1 then -(o.vxy / o.Ex) * s 0 + s 1 / o.Ey - o.vyz / o.Ey * s 2
  else if t = 2 then -(o.vxz / o.Ex) * s 0 - o.vyz / o.Ey * s 1 + s 2 / o.Ez
  else if t = 3 then s 3 / o.Gyz else if t = 4 then s 4 / o.Gxz else s 5 / o.Gxy

/-- Determinant of the compliance times the product of the moduli, as polynomial in the given
constants. -/
noncomputable def Ortho3.det (o : Ortho3) : ℝ :=
  1 - o.vxy ^ 2 * (o.Ey / o.Ex) - o.vyz ^ 2 * (o.Ez / o.Ey) - o.vxz ^ 2 * (o.Ez / o.Ex) -
    2 * (o.vxy * o.vyz * o.vxz * (o.Ez / o.Ex))

/-- What the constructor demands. -/
structure Ortho3.Accepted (o : Ortho3) : Prop where
  Ex : 0 ≤ o.Ex
  Ey : 0 ≤ o.Ey
  Ez : 0 ≤ o.Ez
  Gxy : 0 ≤ o.Gxy
  Gxz : 0 ≤ o.Gxz
  Gyz : 0 ≤ o.Gyz
  vxy : o.vxy ^ 2 ≤ o.Ex / o.Ey
  vyz : o.vyz ^ 2 ≤ o.Ey / o.Ez
  vxz : o.vxz ^ 2 ≤ o.Ex / o.Ez
  det : 0 ≤ o.det

theorem rejectIf_sat {c : Prop} [Decidable c] {msg : String} {P : Unit → Prop} :
    (rejectIf c msg).Sat P ↔ ¬ c ∧ P () := by
  unfold rejectIf
  by_cases h : c
  · simp [h, throwErr]
  · simp [h]

theorem abs_le_sqrt_iff {v a : ℝ} (ha : 0 ≤ a) : ¬ |v| > Real.sqrt a ↔ v ^ 2 ≤ a := by
  rw [not_lt, ← Real.sqrt_sq_eq_abs, Real.sqrt_le_sqrt_iff ha]

/-- Swapping the two directions does not change the condition on Poisson's ratio. -/
theorem swap_ratio {v a b : ℝ} (ha : 0 < a) (hb : 0 < b) : (v * (b / a)) ^ 2 ≤ b / a ↔ v ^ 2 ≤ a / b := by
  have h : 0 < b / a := div_pos hb ha
  rw [mul_pow, sq (b / a), ← mul_assoc, mul_le_iff_le_one_left h, ← le_div_iff₀ h, one_div_div]

theorem orthoInputs_ok {d : Nat} {p : Params} (h : ∀ n ∈ (if d = 3 then ["Youngs Modulus X", "Youngs Modulus Y",
    "Youngs Modulus Z", "Shear Modulus XY", "Shear Modulus XZ", "Shear Modulus YZ", "Poissons Ratio XY",
    "Poissons Ratio XZ", "Poissons Ratio YZ"]
    else if d = 2 then ["Youngs Modulus X", "Youngs Modulus Y", "Shear Modulus XY", "Poissons Ratio XY"]
    else ["Poissons Ratio", "Youngs Modulus"]), p.isParameter n = true) : orthoInputs d p = .ok () := by
  unfold orthoInputs
  dsimp only
  generalize (if d = 3 then ["Youngs Modulus X", "Youngs Modulus Y",
    "Youngs Modulus Z", "Shear Modulus XY", "Shear Modulus XZ", "Shear Modulus YZ", "Poissons Ratio XY",
    "Poissons Ratio XZ", "Poissons Ratio YZ"]
    else if d = 2 then ["Youngs Modulus X", "Youngs Modulus Y", "Shear Modulus XY", "Poissons Ratio XY"]
    else ["Poissons Ratio", "Youngs Modulus"]) = l at h ⊢
  induction l with
  | nil => rfl
  | cons n l ih =>
    have hn := h n (List.mem_cons_self ..)
    show (rejectIf (p.isParameter n = false) (n ++ " is not defined.") >>= fun _ => _) = _
    unfold rejectIf
    rw [if_neg (by rw [hn]; decide)]
    exact ih fun n' h' => h n' (List.mem_cons_of_mem _ h')

theorem Ortho3.In.inputs {o : Ortho3} {p : Params} (h : o.In p) : orthoInputs 3 p = .ok () := by
  apply orthoInputs_ok
  intro n hn
  simp only [if_true, List.mem_cons, List.not_mem_nil, or_false] at hn
  rcases hn with rfl | rfl | rfl | rfl | rfl | rfl | rfl | rfl | rfl
  · exact h.Ex.isParameter
  · exact h.Ey.isParameter
  · exact h.Ez.isParameter
  · exact h.Gxy.isParameter
  · exact h.Gxz.isParameter
  · exact h.Gyz.isParameter
  · exact h.vxy.isParameter
  · exact h.vxz.isParameter
  · exact h.vyz.isParameter

/-- Bind after a check. -/
theorem rejectIf_bind {c : Prop} [Decidable c] {msg : String} {α : Type} {f : Unit → Res α} {P : α → Prop} :
    (rejectIf c msg >>= f).Sat P ↔ ¬ c ∧ (f ()).Sat P := by
  unfold rejectIf
  by_cases h : c
  · simp [h, throwErr]
  · simp [h]

/-- The stability check accepts exactly these constants. -/
theorem stability3 {o : Ortho3} {p : Params} (h : o.In p) (hx : 0 < o.Ex) (hy : 0 < o.Ey) (hz : 0 < o.Ez) :
    (orthoStability3 p).Sat (fun _ => True) ↔ o.Accepted := by
  unfold orthoStability3
  simp only [h.Ex.get, h.Ey.get, h.Ez.get, h.Gxy.get, h.Gxz.get, h.Gyz.get, h.vxy.get, h.vyz.get, h.vxz.get,
    Res.ok_bind, rejectIf_bind, rejectIf_sat, and_true]
  rw [abs_le_sqrt_iff (by positivity), abs_le_sqrt_iff (by positivity), abs_le_sqrt_iff (by positivity),
    abs_le_sqrt_iff (by positivity), abs_le_sqrt_iff (by positivity), abs_le_sqrt_iff (by positivity),
    swap_ratio hx hy, swap_ratio hy hz, swap_ratio hx hz]
  have e : 1 - o.vxy * (o.vxy * (o.Ey / o.Ex)) - o.vyz * (o.vyz * (o.Ez / o.Ey)) -
      o.vxz * (o.vxz * (o.Ez / o.Ex)) - 2 * (o.vxy * (o.Ey / o.Ex) * (o.vyz * (o.Ez / o.Ey)) * o.vxz) = o.det := by
    unfold Ortho3.det
    field_simp
  rw [e]
  simp only [not_lt]
  constructor
  · rintro ⟨h1, h2, h3, h4, h5, h6, h7, h8, h9, -, -, -, h10⟩
    exact ⟨h1, h2, h3, h4, h5, h6, h7, h8, h9, h10⟩
  · rintro ⟨h1, h2, h3, h4, h5, h6, h7, h8, h9, h10⟩
    exact ⟨h1, h2, h3, h4, h5, h6, h7, h8, h9, h7, h8, h9, h10⟩

/-- Entries of the stiffness block. -/
noncomputable def Ortho3.a (o : Ortho3) : ℝ := o.Ex * (1 - o.vyz ^ 2 * (o.Ez / o.Ey)) / o.det
noncomputable def Ortho3.b (o : Ortho3) : ℝ := (o.vxy * o.Ey + o.vxz * o.vyz * o.Ez) / o.det
noncomputable def Ortho3.c (o : Ortho3) : ℝ := o.Ez * (o.vxz + o.vxy * o.vyz) / o.det
noncomputable def Ortho3.f (o : Ortho3) : ℝ := o.Ey * (1 - o.vxz ^ 2 * (o.Ez / o.Ex)) / o.det
noncomputable def Ortho3.g (o : Ortho3) : ℝ := o.Ez * (o.vyz + o.vxz * o.vxy * (o.Ey / o.Ex)) / o.det
noncomputable def Ortho3.h (o : Ortho3) : ℝ := o.Ez * (1 - o.vxy ^ 2 * (o.Ey / o.Ex)) / o.det

theorem orthoStiff3_ok {o : Ortho3} (hx : 0 < o.Ex) (hy : 0 < o.Ey) (hz : 0 < o.Ez) (hdet : o.det ≠ 0) :
    (orthoStiff3 (zeroStiff 3) o.Ex o.Ey o.Ez o.Gxy o.Gxz o.Gyz o.vxy o.vxz o.vyz).Sat
      (Block3 o.a o.b o.c o.f o.g o.h o.Gyz o.Gxz o.Gxy) := by
  have e : 1 - o.vxy * (o.vxy * (o.Ey / o.Ex)) - o.vyz * (o.vyz * (o.Ez / o.Ey)) -
      o.vxz * (o.vxz * (o.Ez / o.Ex)) - 2 * (o.vxy * (o.Ey / o.Ex) * (o.vyz * (o.Ez / o.Ey)) * o.vxz) = o.det := by
    unfold Ortho3.det
    field_simp
  unfold orthoStiff3
  simp only [e]
  have ea : (1 - o.vyz * (o.vyz * (o.Ez / o.Ey))) / (o.Ey * o.Ez * (o.det / (o.Ex * o.Ey * o.Ez))) = o.a := by
    unfold Ortho3.a; field_simp
  have eb : (o.vxy * (o.Ey / o.Ex) + o.vxz * (o.Ez / o.Ex) * o.vyz) / (o.Ey * o.Ez * (o.det / (o.Ex * o.Ey * o.Ez))) = o.b := by
    unfold Ortho3.b; field_simp
  have ec : (o.vxz * (o.Ez / o.Ex) + o.vxy * (o.Ey / o.Ex) * (o.vyz * (o.Ez / o.Ey))) /
      (o.Ey * o.Ez * (o.det / (o.Ex * o.Ey * o.Ez))) = o.c := by
    unfold Ortho3.c; field_simp
  have ef : (1 - o.vxz * (o.Ez / o.Ex) * o.vxz) / (o.Ez * o.Ex * (o.det / (o.Ex * o.Ey * o.Ez))) = o.f := by
    unfold Ortho3.f; field_simp
  have eg : (o.vyz * (o.Ez / o.Ey) + o.vxz * (o.Ez / o.Ex) * o.vxy) / (o.Ez * o.Ex * (o.det / (o.Ex * o.Ey * o.Ez))) = o.g := by
    unfold Ortho3.g; field_simp
  have eh : (1 - o.vxy * (o.vxy * (o.Ey / o.Ex))) / (o.Ex * o.Ey * (o.det / (o.Ex * o.Ey * o.Ez))) = o.h := by
    unfold Ortho3.h; field_simp
  rw [ea, eb, ec, ef, eg, eh]
  simp only [vwr2, vrd2, zeroStiff, voigt, if_true, Nat.reduceLT, and_self, Res.ok_bind, Nat.reduceEqDiff,
    if_false, and_true, and_false]
  refine Res.Sat.ok ⟨rfl, rfl, ?_, ?_, ?_, ?_, ?_, ?_⟩ <;> intro e <;>
    simp [stress, sum_range_succ]

/-- **C40**: the constructor accepts exactly the constants with the documented inequalities (with "or
equal"). -/
theorem C40_orthotropic_accepts {o : Ortho3} {p : Params} (h : o.In p) (hx : 0 < o.Ex) (hy : 0 < o.Ey)
    (hz : 0 < o.Ez) (hrho : p.isParameter "Mass Density" = true → p.isScalar "Mass Density" = true) :
    (orthotropic3 p).Sat (fun _ => True) ↔ o.Accepted := by
  unfold orthotropic3
  dsimp only
  rw [h.inputs, Res.ok_bind]
  constructor
  · intro H
    obtain ⟨M, hM, -⟩ := H
    apply (stability3 h hx hy hz).1
    cases hs : orthoStability3 p with
    | ok a => exact Res.Sat.ok trivial
    | err m => rw [hs] at hM; cases hM
    | ub => rw [hs] at hM; cases hM
  · intro H
    obtain ⟨u, hu, -⟩ := (stability3 h hx hy hz).2 H
    rw [hu, Res.ok_bind]
    have hr : (orthoDensity p).Sat fun _ => True := by
      unfold orthoDensity
      split
      · next hp =>
        have := hrho hp
        unfold Params.isScalar at this
        unfold Params.get
        split at this
        · exact Res.Sat.ok trivial
        · cases this
      · exact Res.Sat.ok trivial
    refine hr.bind fun rho _ => ?_
    simp only [h.Ex.get, h.Ey.get, h.Ez.get, h.Gxy.get, h.Gxz.get, h.Gyz.get, h.vxy.get, h.vyz.get, h.vxz.get,
      Res.ok_bind]
    unfold orthoStiff3
    simp only [elasticBase, vwr2, vrd2, zeroStiff, voigt, if_true, Nat.reduceLT, and_self, Res.ok_bind]
    exact Res.Sat.ok trivial

/-- **C40**: where the inequalities are strict, the orthotropic stiffness is symmetric, inverts the compliance
and is positive definite. -/
theorem C40_orthotropic3 {o : Ortho3} {p : Params} (h : o.In p) (hx : 0 < o.Ex) (hy : 0 < o.Ey) (hz : 0 < o.Ez)
    (hxy : 0 < o.Gxy) (hxz : 0 < o.Gxz) (hyz : 0 < o.Gyz) (hdet : o.det ≠ 0) {M : Elastic}
    (hM : orthotropic3 p = .ok M) :
    IsStiffness 3 M.stiff ∧ (∀ e t, t < 6 → o.strain (stress M.stiff e) t = e t) ∧ Definite 3 M.stiff := by
  have hs : (orthoStability3 p).Sat fun _ => True := by
    unfold orthotropic3 at hM
    dsimp only at hM
    rw [h.inputs, Res.ok_bind] at hM
    cases hs : orthoStability3 p with
    | ok a => exact Res.Sat.ok trivial
    | err m => rw [hs] at hM; cases hM
    | ub => rw [hs] at hM; cases hM
  have A := (stability3 h hx hy hz).1 hs
  have hB : Block3 o.a o.b o.c o.f o.g o.h o.Gyz o.Gxz o.Gxy M.stiff := by
    unfold orthotropic3 at hM
    dsimp only at hM
    obtain ⟨u, hu, -⟩ := hs
    rw [h.inputs, Res.ok_bind, hu, Res.ok_bind] at hM
    cases hr : orthoDensity p with
    | err m => rw [hr] at hM; cases hM
    | ub => rw [hr] at hM; cases hM
    | ok r =>
      rw [hr] at hM
      simp only [h.Ex.get, h.Ey.get, h.Ez.get, h.Gxy.get, h.Gxz.get, h.Gyz.get, h.vxy.get, h.vyz.get, h.vxz.get,
        Res.ok_bind] at hM
      obtain ⟨C, hC, B⟩ := orthoStiff3_ok hx hy hz hdet
      rw [show (elasticBase 3 p).stiff = zeroStiff 3 from rfl, hC, Res.ok_bind] at hM
      cases hM
      exact B
  have hd : 0 < o.det := lt_of_le_of_ne A.det (Ne.symm hdet)
  refine ⟨hB.stiffness, ?_, ?_⟩
  · intro e t ht
    unfold Ortho3.strain
    rw [hB.s0, hB.s1, hB.s2, hB.s3, hB.s4, hB.s5]
    have hdd := hdet
    unfold Ortho3.a Ortho3.b Ortho3.c Ortho3.f Ortho3.g Ortho3.h
    interval_cases t <;> simp only [if_true, if_false, Nat.reduceEqDiff, OfNat.ofNat_ne_zero, one_ne_zero]
    · have : o.det * e 0 = (1 - o.vxy ^ 2 * (o.Ey / o.Ex) - o.vyz ^ 2 * (o.Ez / o.Ey) - o.vxz ^ 2 * (o.Ez / o.Ex) -
        2 * (o.vxy * o.vyz * o.vxz * (o.Ez / o.Ex))) * e 0 := rfl
      have key : ∀ x, o.det * x = o.det * e 0 → x = e 0 := fun x hx => mul_left_cancel₀ hdet hx
      apply key
      rw [this]
      generalize o.det = D at *
      field_simp
      ring
    · have : o.det * e 1 = (1 - o.vxy ^ 2 * (o.Ey / o.Ex) - o.vyz ^ 2 * (o.Ez / o.Ey) - o.vxz ^ 2 * (o.Ez / o.Ex) -
        2 * (o.vxy * o.vyz * o.vxz * (o.Ez / o.Ex))) * e 1 := rfl
      have key : ∀ x, o.det * x = o.det * e 1 → x = e 1 := fun x hx => mul_left_cancel₀ hdet hx
      apply key
      rw [this]
      generalize o.det = D at *
      field_simp
      ring
    · have : o.det * e 2 = (1 - o.vxy ^ 2 * (o.Ey / o.Ex) - o.vyz ^ 2 * (o.Ez / o.Ey) - o.vxz ^ 2 * (o.Ez / o.Ex) -
        2 * (o.vxy * o.vyz * o.vxz * (o.Ez / o.Ex))) * e 2 := rfl
      have key : ∀ x, o.det * x = o.det * e 2 → x = e 2 := fun x hx => mul_left_cancel₀ hdet hx
      apply key
      rw [this]
      generalize o.det = D at *
      field_simp
      ring
    · field_simp
    · field_simp
    · field_simp
  · -- positive definiteness through the principal minors
    have hm1 : o.vyz ^ 2 * (o.Ez / o.Ey) ≤ 1 := by
      have := A.vyz
      rw [le_div_iff₀ hz] at this
      rw [mul_div_assoc', div_le_one hy]; exact this
    have hm1' : o.vyz ^ 2 * (o.Ez / o.Ey) ≠ 1 := by
      intro h1
      have : o.det = -(o.Ey / o.Ex) * (o.vxy + o.vyz * o.vxz * (o.Ez / o.Ey)) ^ 2 := by
        have h2 : o.det = (1 - o.vyz ^ 2 * (o.Ez / o.Ey)) * (1 - o.vxz ^ 2 * (o.Ez / o.Ex)) -
            (o.Ey / o.Ex) * (o.vxy + o.vyz * o.vxz * (o.Ez / o.Ey)) ^ 2 := by
          unfold Ortho3.det; field_simp; ring
        rw [h2, h1]; ring
      have h3 : 0 ≤ (o.Ey / o.Ex) * (o.vxy + o.vyz * o.vxz * (o.Ez / o.Ey)) ^ 2 := by positivity
      rw [this] at hd
      linarith [neg_mul (o.Ey / o.Ex) ((o.vxy + o.vyz * o.vxz * (o.Ez / o.Ey)) ^ 2)]
    have hp1 : 0 < 1 - o.vyz ^ 2 * (o.Ez / o.Ey) := sub_pos.2 (lt_of_le_of_ne hm1 hm1')
    have ha : 0 < o.a := div_pos (mul_pos hx hp1) hd
    have h2 : o.a * o.f - o.b ^ 2 = o.Ex * o.Ey / o.det := by
      unfold Ortho3.a Ortho3.f Ortho3.b
      have : o.Ex * (1 - o.vyz ^ 2 * (o.Ez / o.Ey)) * (o.Ey * (1 - o.vxz ^ 2 * (o.Ez / o.Ex))) -
          (o.vxy * o.Ey + o.vxz * o.vyz * o.Ez) ^ 2 = o.Ex * o.Ey * o.det := by
        unfold Ortho3.det; field_simp; ring
      rw [div_mul_div_comm, div_pow, ← sq o.det, ← sub_div, this]
      field_simp
    have h3 : o.a * (o.f * o.h - o.g ^ 2) - o.b * (o.b * o.h - o.g * o.c) + o.c * (o.b * o.g - o.f * o.c) =
        o.Ex * o.Ey * o.Ez / o.det := by
      have e1 : o.f * o.h - o.g ^ 2 = o.Ey * o.Ez / o.det := by
        have : o.Ey * (1 - o.vxz ^ 2 * (o.Ez / o.Ex)) * (o.Ez * (1 - o.vxy ^ 2 * (o.Ey / o.Ex))) -
            (o.Ez * (o.vyz + o.vxz * o.vxy * (o.Ey / o.Ex))) ^ 2 = o.Ey * o.Ez * o.det := by
          unfold Ortho3.det; field_simp; ring
        unfold Ortho3.f Ortho3.h Ortho3.g
        rw [div_mul_div_comm, div_pow, ← sq o.det, ← sub_div, this]
        field_simp
      have e2 : o.b * o.h - o.g * o.c = o.vxy * (o.Ey / o.Ex) * o.Ex * o.Ez / o.det := by
        have : (o.vxy * o.Ey + o.vxz * o.vyz * o.Ez) * (o.Ez * (1 - o.vxy ^ 2 * (o.Ey / o.Ex))) -
            o.Ez * (o.vyz + o.vxz * o.vxy * (o.Ey / o.Ex)) * (o.Ez * (o.vxz + o.vxy * o.vyz)) =
            o.vxy * (o.Ey / o.Ex) * o.Ex * o.Ez * o.det := by
          unfold Ortho3.det; field_simp; ring
        unfold Ortho3.b Ortho3.h Ortho3.g Ortho3.c
        rw [div_mul_div_comm, div_mul_div_comm, ← sub_div, this]
        field_simp
      have e3 : o.b * o.g - o.f * o.c = -(o.vxz * o.Ey * o.Ez / o.det) := by
        have : (o.vxy * o.Ey + o.vxz * o.vyz * o.Ez) * (o.Ez * (o.vyz + o.vxz * o.vxy * (o.Ey / o.Ex))) -
            o.Ey * (1 - o.vxz ^ 2 * (o.Ez / o.Ex)) * (o.Ez * (o.vxz + o.vxy * o.vyz)) =
            -(o.vxz * o.Ey * o.Ez) * o.det := by
          unfold Ortho3.det; field_simp; ring
        unfold Ortho3.b Ortho3.f Ortho3.g Ortho3.c
        rw [div_mul_div_comm, div_mul_div_comm, ← sub_div, this]
        field_simp
      rw [e1, e2, e3]
      have : o.Ex * (1 - o.vyz ^ 2 * (o.Ez / o.Ey)) * (o.Ey * o.Ez) -
          (o.vxy * o.Ey + o.vxz * o.vyz * o.Ez) * (o.vxy * (o.Ey / o.Ex) * o.Ex * o.Ez) -
          o.Ez * (o.vxz + o.vxy * o.vyz) * (o.vxz * o.Ey * o.Ez) = o.Ex * o.Ey * o.Ez * o.det := by
        unfold Ortho3.det; field_simp; ring
      unfold Ortho3.a Ortho3.b Ortho3.c
      rw [mul_neg, div_mul_div_comm, div_mul_div_comm, div_mul_div_comm, ← sub_div, ← sub_eq_add_neg, ← sub_div, this]
      field_simp
    rintro e ⟨t, ht, he⟩
    rw [hB.work]
    have ht' : t < 6 := ht
    have p3 : 0 ≤ o.Gyz * e 3 ^ 2 + o.Gxz * e 4 ^ 2 + o.Gxy * e 5 ^ 2 := by positivity
    by_cases hn : e 0 ≠ 0 ∨ e 1 ≠ 0 ∨ e 2 ≠ 0
    · have := quad3 ha (by rw [h2]; positivity) (by rw [h3]; positivity) hn
      linarith
    · push Not at hn
      obtain ⟨h0, h1', h2'⟩ := hn
      rw [h0, h1', h2']
      have : 0 < o.Gyz * e 3 ^ 2 + o.Gxz * e 4 ^ 2 + o.Gxy * e 5 ^ 2 := by
        interval_cases t
        · exact absurd h0 he
        · exact absurd h1' he
        · exact absurd h2' he
        all_goals positivity
      linarith

end Plato.Material
