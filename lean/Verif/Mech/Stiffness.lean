import Verif.Mech.ElasticForm
import Mathlib.Analysis.Calculus.LineDeriv.Basic

/-!
# C47: the stiffness matrix is the matrix of the energy form
-/

namespace Plato.Mech
open Finset Plato

theorem sum_single_right {m q : Nat} (hq : q < m) (f : Nat → ℝ) :
    ∑ l ∈ range m, f l * (Pi.single q 1 : Nat → ℝ) l = f q := by
  rw [sum_eq_single_of_mem q (mem_range.2 hq), Pi.single_eq_same, mul_one]
  intro l _ hl
  rw [Pi.single_eq_of_ne hl, mul_zero]

theorem sum_single_left {m q : Nat} (hq : q < m) (f : Nat → ℝ) :
    ∑ l ∈ range m, (Pi.single q 1 : Nat → ℝ) l * f l = f q := by
  simp only [mul_comm _ (f _)]
  exact sum_single_right hq f

/-! ## The energy form -/

section Form
variable {M : FeModel} {P : Nat → Elastostatic ℝ} {z x : List ℝ}

theorem cellEnergy_lin (P : Elastostatic ℝ) (Z : Nat → ℝ) (X : Nat → Nat → ℝ) (a b : ℝ) (U V W : Nat → ℝ) :
    cellEnergy P Z X (fun l => a * U l + b * V l) W = a * cellEnergy P Z X U W + b * cellEnergy P Z X V W := by
  unfold cellEnergy
  simp only [strainForm_lin, add_mul, sum_add_distrib, mul_assoc, ← mul_sum]
  ring

theorem energyForm_lin (a b : ℝ) (u v w : Nat → ℝ) :
    energyForm M P z x (fun q => a * u q + b * v q) w =
      a * energyForm M P z x u w + b * energyForm M P z x v w := by
  unfold energyForm
  simp only [mul_sum, ← sum_add_distrib, cellEnergy_lin]

/-- Only the degrees of freedom of the mesh matter. -/
theorem energyForm_congr (hM : M.Ok) (h : ResOk M P) {u u' w w' : Nat → ℝ}
    (hu : ∀ q, q < M.nn * M.ndof → u q = u' q) (hw : ∀ q, q < M.nn * M.ndof → w q = w' q) :
    energyForm M P z x u w = energyForm M P z x u' w' := by
  unfold energyForm
  refine sum_congr rfl fun k hk => sum_congr rfl fun c hc => ?_
  have hPd : (P k).d = M.dim := h.d k (mem_range.1 hk)
  have hd3 : (P k).d = 1 ∨ (P k).d = 2 ∨ (P k).d = 3 := by rw [hPd]; exact h.dim
  have hnd : M.npc * M.ndof = ((P k).d + 1) * (P k).d := by rw [h.ndof, FeModel.npc, hPd]
  have hlt : ∀ l, l < ((P k).d + 1) * (P k).d → cellDof M.npc M.ndof M.c2n (gcell (M.part k) c) l < M.nn * M.ndof :=
    fun l hl => by
      have := hM.mesh.dof_lt (d := M.ndof) ((hM.domOk k).1 c (mem_range.1 hc)) (l := l) (by omega)
      exact this
  unfold cellEnergy
  congr 1
  refine sum_congr rfl fun t _ => sum_congr rfl fun s _ => ?_
  rw [strainForm_congr hd3 (fun l hl => hu _ (hlt l hl)) (fun _ _ _ _ => rfl) s,
    strainForm_congr hd3 (fun l hl => hw _ (hlt l hl)) (fun _ _ _ _ => rfl) t]

theorem energyForm_symm (hs : ∀ k t s, t < numVoigt (P k).d → s < numVoigt (P k).d →
      (P k).stiff t s = (P k).stiff s t) (u w : Nat → ℝ) :
    energyForm M P z x u w = energyForm M P z x w u := by
  unfold energyForm cellEnergy
  refine sum_congr rfl fun k _ => sum_congr rfl fun c _ => ?_
  congr 1
  rw [sum_comm]
  refine sum_congr rfl fun s h1 => sum_congr rfl fun t h2 => ?_
  rw [hs k t s (mem_range.1 h2) (mem_range.1 h1)]
  ring

end Form

/-! ## The stiffness matrix -/

section
variable {M : FeModel} (hM : M.Ok) {P : Nat → Elastostatic ℝ} {penF : Nat → Fad → Fad} (h : ResOk M P)
  {initF : Nat → Nat → Nat → Nat} {eF : Nat → Nat → List Nat}
  (heF : ∀ k j, IsSchedule (eF k j) (M.size (M.part k)))
  {o : List Nat} (ho : IsSchedule o M.nn) {sch : Nat → Nat → List Nat}
  {u z x : List ℝ} (hu : u.length = M.nn * M.ndof) (hz : z.length = M.nn)
  (hx : x.length = M.nn * M.dim) (hgood : ∀ c, c < M.nc → goodCell M P penF (M.cellZ z c) (M.cellX x c))
  (hs : SchedOk M sch (M.npc * M.ndof * (M.npc * M.ndof)))
include hM h heF ho hu hz hx hgood hs

/-- **C47**: the matrix `gradient_u` returns is the matrix of the energy form. -/
theorem C47_stiffness :
    (M.gradientU (elastostatic Fad.fabs M (fun k => (P k).lift (penF k)) initF eF) o sch u z x).Sat fun J =>
      J.WF M.nn M.nn ∧ ∀ v w : Nat → ℝ,
        ∑ q ∈ range (M.nn * M.ndof), w q * ∑ j ∈ range (M.nn * M.ndof), J.dense q j * v j =
          energyForm M P z x v w := by
  obtain ⟨u', rfl⟩ : ∃ u' : Fin (M.nn * M.ndof) → ℝ, u = List.ofFn u' :=
    ⟨fun i => at0 u i, by
      refine List.ext_getElem (by rw [List.length_ofFn, hu]) fun i h1 h2 => ?_
      rw [List.getElem_ofFn, at0_eq h1]⟩
  let eR : Nat → Nat → List Nat := fun k _ => List.range (M.size (M.part k))
  have heR : ∀ k j, IsSchedule (eR k j) (M.size (M.part k)) := fun k j => IsSchedule.range _
  let sR : Nat → Nat → List Nat := fun k j =>
    if j = 3 then List.range (M.size (M.part k) * (M.npc * M.ndof)) else List.range (M.size (M.part k))
  have hsR : SchedOk M sR (M.npc * M.ndof) :=
    ⟨fun k j _ hj => by rw [show sR k j = List.range (M.size (M.part k)) from if_neg (by omega)]; exact IsSchedule.range _,
      fun k _ => by
        rw [show sR k 3 = List.range (M.size (M.part k) * (M.npc * M.ndof)) from if_pos rfl]
        exact IsSchedule.range _⟩
  obtain ⟨v, J, hv, hJ, hwf, hD⟩ := C43_elastostatic_u hM (initR := fun _ _ => id) (initF := initF) (u := u') h heR heF ho hz hx hgood hs
    (schR := fun _ => sR) (fun _ => hsR)
  refine ⟨J, hJ, hwf, fun p w => ?_⟩
  obtain ⟨-, v0, -, hv0, -⟩ := C47_work hM h heR (init := fun _ _ => id) hu hz hx hsR hsR
  have hF : ∀ y : Fin (M.nn * M.ndof) → ℝ, ∑ q ∈ range (M.nn * M.ndof), w q * at0 (v y) q =
      energyForm M P z x (at0 (List.ofFn y)) w + ∑ q ∈ range (M.nn * M.ndof), at0 v0 q * w q := by
    intro y
    obtain ⟨v1, v2, e1, e2, e3⟩ := C47_work hM h heR (init := fun _ _ => id) (u := List.ofFn y)
      (List.length_ofFn) hz hx hsR hsR
    rw [(hv y).1] at e1
    rw [hv0] at e2
    cases e1; cases e2
    rw [← e3 w]
    exact sum_congr rfl fun q _ => mul_comm _ _
  let p' : Fin (M.nn * M.ndof) → ℝ := fun i => p i
  have d1 : HasFDerivAt (fun y => ∑ q ∈ range (M.nn * M.ndof), w q * at0 (v y) q)
      (∑ q ∈ range (M.nn * M.ndof), w q • lin (M.nn * M.ndof) fun j => J.dense q j) u' :=
    HasFDerivAt.fun_sum fun q hq => (hD q (mem_range.1 hq)).const_mul (w q)
  have l1 := (d1.hasLineDerivAt p')
  have l2 : HasLineDerivAt ℝ (fun y => ∑ q ∈ range (M.nn * M.ndof), w q * at0 (v y) q)
      (energyForm M P z x p w) u' p' := by
    unfold HasLineDerivAt
    have e : (fun t : ℝ => ∑ q ∈ range (M.nn * M.ndof), w q * at0 (v (u' + t • p')) q) =
        fun t => (1 * energyForm M P z x (at0 (List.ofFn u')) w + t * energyForm M P z x p w) +
          ∑ q ∈ range (M.nn * M.ndof), at0 v0 q * w q := by
      funext t
      rw [hF, ← energyForm_lin]
      congr 1
      refine energyForm_congr hM h (fun q hq => ?_) fun _ _ => rfl
      rw [at0_ofFn, at0_ofFn, map_add, map_smul, one_mul, smul_eq_mul]
      congr 2
      unfold coord
      rw [dif_pos hq]
      rfl
    rw [e]
    have := ((hasDerivAt_id (0 : ℝ)).mul_const (energyForm M P z x p w)).const_add
      (1 * energyForm M P z x (at0 (List.ofFn u')) w) |>.add_const
      (∑ q ∈ range (M.nn * M.ndof), at0 v0 q * w q)
    simpa using this
  have := l1.unique l2
  rw [← this]
  simp only [_root_.sum_apply, _root_.smul_apply, lin_apply, smul_eq_mul]
  refine sum_congr rfl fun q _ => ?_
  rw [sum_range]

/-- **C47**: entry by entry. -/
theorem C47_entry :
    (M.gradientU (elastostatic Fad.fabs M (fun k => (P k).lift (penF k)) initF eF) o sch u z x).Sat fun J =>
      ∀ i j, i < M.nn * M.ndof → j < M.nn * M.ndof →
        J.dense i j = energyForm M P z x (Pi.single j 1) (Pi.single i 1) := by
  refine (C47_stiffness hM h heF ho hu hz hx hgood hs).mono ?_
  rintro J ⟨-, hJ⟩ i j hi hj
  rw [← hJ, sum_single_left hi, sum_single_right hj]

/-- **C47**: with a symmetric material stiffness the matrix is symmetric. -/
theorem C47_symmetric (hsym : ∀ k t s, t < numVoigt (P k).d → s < numVoigt (P k).d →
      (P k).stiff t s = (P k).stiff s t) :
    (M.gradientU (elastostatic Fad.fabs M (fun k => (P k).lift (penF k)) initF eF) o sch u z x).Sat fun J =>
      ∀ i j, i < M.nn * M.ndof → j < M.nn * M.ndof → J.dense i j = J.dense j i := by
  refine (C47_entry hM h heF ho hu hz hx hgood hs).mono ?_
  intro J hJ i j hi hj
  rw [hJ i j hi hj, hJ j i hj hi, energyForm_symm hsym]

end

/-- Voigt quadratic form of a material. -/
def voigtEnergy (P : Elastostatic ℝ) (e : Nat → ℝ) : ℝ :=
  ∑ t ∈ range (numVoigt P.d), ∑ s ∈ range (numVoigt P.d), e s * P.stiff t s * e t

theorem cellEnergy_self (P : Elastostatic ℝ) (Z U : Nat → ℝ) (X : Nat → Nat → ℝ) :
    cellEnergy P Z X U U =
      P.volForm abs X * P.pen (meanDensity (P.d + 1) Z) * voigtEnergy P (P.strainForm U X) := rfl

theorem volForm_eq (P : Elastostatic ℝ) (X : Nat → Nat → ℝ) :
    P.volForm abs X = |detForm P.d X| * P.cubWeight := rfl

section
variable {M : FeModel} (hM : M.Ok) {P : Nat → Elastostatic ℝ} {penF : Nat → Fad → Fad} (h : ResOk M P)
  {initF : Nat → Nat → Nat → Nat} {eF : Nat → Nat → List Nat}
  (heF : ∀ k j, IsSchedule (eF k j) (M.size (M.part k)))
  {o : List Nat} (ho : IsSchedule o M.nn) {sch : Nat → Nat → List Nat}
  {u z x : List ℝ} (hu : u.length = M.nn * M.ndof) (hz : z.length = M.nn)
  (hx : x.length = M.nn * M.dim) (hgood : ∀ c, c < M.nc → goodCell M P penF (M.cellZ z c) (M.cellX x c))
  (hs : SchedOk M sch (M.npc * M.ndof * (M.npc * M.ndof)))
  (hw : ∀ k, k < M.domains.length → 0 ≤ (P k).cubWeight)
  (hp : ∀ k c, k < M.domains.length → c < M.size (M.part k) →
    0 ≤ (P k).pen (meanDensity ((P k).d + 1) (M.cellZ z (gcell (M.part k) c))))
  (hC : ∀ k e, k < M.domains.length → 0 ≤ voigtEnergy (P k) e)

omit hM h heF ho hu hz hx hgood hs in
include hw hp hC in
theorem energyForm_nonneg (v : Nat → ℝ) : 0 ≤ energyForm M P z x v v := by
  unfold energyForm
  refine sum_nonneg fun k hk => sum_nonneg fun c hc => ?_
  rw [cellEnergy_self, volForm_eq]
  exact mul_nonneg (mul_nonneg (mul_nonneg (abs_nonneg _) (hw k (mem_range.1 hk)))
    (hp k c (mem_range.1 hk) (mem_range.1 hc))) (hC k _ (mem_range.1 hk))

include hM h heF ho hu hz hx hgood hs hw hp hC

/-- **C47**: with a positive semidefinite material stiffness, non-negative penalty and cubature weight
the matrix is positive semidefinite. -/
theorem C47_semidefinite :
    (M.gradientU (elastostatic Fad.fabs M (fun k => (P k).lift (penF k)) initF eF) o sch u z x).Sat fun J =>
      ∀ v : Nat → ℝ, 0 ≤ ∑ q ∈ range (M.nn * M.ndof), v q * ∑ j ∈ range (M.nn * M.ndof), J.dense q j * v j := by
  refine (C47_stiffness hM h heF ho hu hz hx hgood hs).mono ?_
  rintro J ⟨-, hJ⟩ v
  rw [hJ]
  exact energyForm_nonneg hw hp hC v

/-- **C47**: an equilibrium minimises the potential energy.  `v0` is the residual at the zero state, so
`-v0` is the vector of applied forces. -/
theorem C47_minimum (hsym : ∀ k t s, t < numVoigt (P k).d → s < numVoigt (P k).d →
      (P k).stiff t s = (P k).stiff s t)
    {eR : Nat → Nat → List Nat} (heR : ∀ k j, IsSchedule (eR k j) (M.size (M.part k)))
    {init : Nat → Nat → Nat → Nat} {s0 s1 : Nat → Nat → List Nat} (hs0 : SchedOk M s0 (M.npc * M.ndof))
    (hs1 : SchedOk M s1 (M.npc * M.ndof)) {v v0 : List ℝ}
    (hv : M.value (elastostatic abs M P init eR) s1 u z x = .ok v)
    (hv0 : M.value (elastostatic abs M P init eR) s0 (List.replicate (M.nn * M.ndof) 0) z x = .ok v0)
    (heq : ∀ q, q < M.nn * M.ndof → at0 v q = 0) :
    (M.gradientU (elastostatic Fad.fabs M (fun k => (P k).lift (penF k)) initF eF) o sch u z x).Sat fun J =>
      ∀ y : Nat → ℝ,
        1 / 2 * ∑ q ∈ range (M.nn * M.ndof), at0 u q * ∑ j ∈ range (M.nn * M.ndof), J.dense q j * at0 u j +
            ∑ q ∈ range (M.nn * M.ndof), at0 v0 q * at0 u q ≤
          1 / 2 * ∑ q ∈ range (M.nn * M.ndof), y q * ∑ j ∈ range (M.nn * M.ndof), J.dense q j * y j +
            ∑ q ∈ range (M.nn * M.ndof), at0 v0 q * y q := by
  obtain ⟨v', v0', e, e0, hwk⟩ := C47_work hM h heR (init := init) hu hz hx hs1 hs0
  rw [hv] at e; rw [hv0] at e0
  cases e; cases e0
  refine (C47_stiffness hM h heF ho hu hz hx hgood hs).mono ?_
  rintro J ⟨-, hJ⟩ y
  rw [hJ, hJ]
  have hb : ∀ w : Nat → ℝ, energyForm M P z x (at0 u) w + ∑ q ∈ range (M.nn * M.ndof), at0 v0 q * w q = 0 := by
    intro w
    rw [← hwk w]
    exact sum_eq_zero fun q hq => by rw [heq q (mem_range.1 hq), zero_mul]
  have hq := energyForm_nonneg (x := x) hw hp hC (fun q => 1 * y q + (-1) * at0 u q)
  rw [energyForm_lin, energyForm_symm hsym y, energyForm_symm hsym (at0 u), energyForm_lin, energyForm_lin,
    energyForm_symm hsym y (at0 u)] at hq
  have h1 := hb (at0 u)
  have h2 := hb y
  linarith

end

section
variable {M : FeModel} (hM : M.Ok) {P : Nat → Elastostatic ℝ} {penF : Nat → Fad → Fad} (h : ResOk M P)
  {initF : Nat → Nat → Nat → Nat} {eF : Nat → Nat → List Nat}
  (heF : ∀ k j, IsSchedule (eF k j) (M.size (M.part k)))
  {o : List Nat} (ho : IsSchedule o M.nn) {sch : Nat → Nat → List Nat}
  {u z x : List ℝ} (hu : u.length = M.nn * M.ndof) (hz : z.length = M.nn)
  (hx : x.length = M.nn * M.dim) (hgood : ∀ c, c < M.nc → goodCell M P penF (M.cellZ z c) (M.cellX x c))
  (hs : SchedOk M sch (M.npc * M.ndof * (M.npc * M.ndof)))
include hM h heF ho hu hz hx hgood hs

/-- **C47**: the residual is affine with the stiffness matrix as its slope, at whichever state the
matrix was computed. -/
theorem C47_affine {eR : Nat → Nat → List Nat} (heR : ∀ k j, IsSchedule (eR k j) (M.size (M.part k)))
    {init : Nat → Nat → Nat → Nat} {s0 s1 : Nat → Nat → List Nat} (hs0 : SchedOk M s0 (M.npc * M.ndof))
    (hs1 : SchedOk M s1 (M.npc * M.ndof)) {y : List ℝ} (hy : y.length = M.nn * M.ndof) :
    ∃ v v0 J, M.value (elastostatic abs M P init eR) s1 y z x = .ok v ∧
      M.value (elastostatic abs M P init eR) s0 (List.replicate (M.nn * M.ndof) 0) z x = .ok v0 ∧
      M.gradientU (elastostatic Fad.fabs M (fun k => (P k).lift (penF k)) initF eF) o sch u z x = .ok J ∧
      ∀ q, q < M.nn * M.ndof →
        at0 v q = at0 v0 q + ∑ j ∈ range (M.nn * M.ndof), J.dense q j * at0 y j := by
  obtain ⟨v, v0, e, e0, hwk⟩ := C47_work hM h heR (init := init) hy hz hx hs1 hs0
  obtain ⟨J, eJ, -, hJ⟩ := C47_stiffness hM h heF (initF := initF) ho hu hz hx hgood hs
  refine ⟨v, v0, J, e, e0, eJ, fun q hq => ?_⟩
  have := hwk (Pi.single q 1)
  rw [← hJ] at this
  rw [sum_single_right hq, sum_single_right hq, sum_single_left hq] at this
  rw [this, add_comm]

/-- **C47**: the matrix does not depend on the state it is computed at. -/
theorem C47_constant {u' : List ℝ} (hu' : u'.length = M.nn * M.ndof) {initF' : Nat → Nat → Nat → Nat}
    {eF' : Nat → Nat → List Nat} (heF' : ∀ k j, IsSchedule (eF' k j) (M.size (M.part k)))
    {o' : List Nat} (ho' : IsSchedule o' M.nn) {sch' : Nat → Nat → List Nat}
    (hs' : SchedOk M sch' (M.npc * M.ndof * (M.npc * M.ndof))) :
    ∃ J J', M.gradientU (elastostatic Fad.fabs M (fun k => (P k).lift (penF k)) initF eF) o sch u z x = .ok J ∧
      M.gradientU (elastostatic Fad.fabs M (fun k => (P k).lift (penF k)) initF' eF') o' sch' u' z x = .ok J' ∧
      ∀ i j, i < M.nn * M.ndof → j < M.nn * M.ndof → J.dense i j = J'.dense i j := by
  obtain ⟨J, eJ, hJ⟩ := C47_entry hM h heF (initF := initF) ho hu hz hx hgood hs
  obtain ⟨J', eJ', hJ'⟩ := C47_entry hM h heF' (initF := initF') ho' hu' hz hx hgood hs'
  exact ⟨J, J', eJ, eJ', fun i j hi hj => by rw [hJ i j hi hj, hJ' i j hi hj]⟩

end

/-! ## Rigid motions -/

/-- An infinitesimal rigid motion: translation `t` and rotation with skew matrix `W`. -/
def IsRigid (nn d : Nat) (x : List ℝ) (t : Nat → ℝ) (W : Nat → Nat → ℝ) (v : Nat → ℝ) : Prop :=
  (∀ i j, W i j = -W j i) ∧
    ∀ n i, n < nn → i < d → v (d * n + i) = t i + ∑ j ∈ range d, W i j * at0 x (d * n + j)

theorem strain_rigid {P : Elastostatic ℝ} (hd : P.d = 1 ∨ P.d = 2 ∨ P.d = 3) {X : Nat → Nat → ℝ}
    (hdet : detForm P.d X ≠ 0) {U t : Nat → ℝ} {W : Nat → Nat → ℝ} (hW : ∀ i j, W i j = -W j i)
    (hU : ∀ n i, n < P.d + 1 → i < P.d → U (n * P.d + i) = t i + ∑ j ∈ range P.d, W i j * X n j) (s : Nat) :
    P.strainForm U X s = 0 := by
  have hR := gradForm_reproduces hd X (by rwa [← detForm_eq hd])
  have hf : ∀ i k, i < P.d → k < P.d → fieldGrad P.d (fun n i => U (n * P.d + i)) (gradForm P.d X) i k = W i k := by
    intro i k hi hk
    have := hR (t i) (fun j => W i j) ⟨k, hk⟩
    rw [← show _ = W i k from this, fieldGrad, sum_range]
    refine sum_congr rfl fun n _ => ?_
    rw [hU n i n.2 hi, sum_range]
    rfl
  obtain ⟨h1, h2⟩ := voigtPair_lt hd (t := s)
  unfold Elastostatic.strainForm voigtStrain
  rw [hf _ _ h1 h1, hf _ _ h1 h2, hf _ _ h2 h1]
  split_ifs with e
  · have := hW (voigtPair P.d s).1 (voigtPair P.d s).1
    linarith
  · rw [hW]; ring

section
variable {M : FeModel} (hM : M.Ok) {P : Nat → Elastostatic ℝ} {penF : Nat → Fad → Fad} (h : ResOk M P)
  {z x : List ℝ} (hgood : ∀ c, c < M.nc → goodCell M P penF (M.cellZ z c) (M.cellX x c))
  {t : Nat → ℝ} {W : Nat → Nat → ℝ} {v : Nat → ℝ} (hv : IsRigid M.nn M.dim x t W v)
include hM h hgood hv

theorem cell_rigid {k c : Nat} (hk : k < M.domains.length) (hc : c < M.size (M.part k)) (s : Nat) :
    (P k).strainForm (fun l => v (cellDof M.npc M.ndof M.c2n (gcell (M.part k) c) l))
      (M.cellX x (gcell (M.part k) c)) s = 0 := by
  have hPd : (P k).d = M.dim := h.d k hk
  have hd3 : (P k).d = 1 ∨ (P k).d = 2 ∨ (P k).d = 3 := by rw [hPd]; exact h.dim
  have hgc := (hM.domOk k).1 c hc
  refine strain_rigid hd3 (by rw [hPd]; exact (hgood _ hgc).1) (t := t) hv.1 (fun n i hn hi => ?_) s
  rw [hPd] at hn hi ⊢
  have hnode := hM.mesh.node_lt hgc (show n < M.npc from hn)
  refine Eq.trans ?_ (hv.2 _ i hnode hi)
  unfold cellDof
  rw [h.ndof, Nat.mul_comm n, Nat.mul_add_div (by omega), Nat.div_eq_of_lt hi, Nat.mul_add_mod,
    Nat.mod_eq_of_lt hi, Nat.add_zero]

theorem energyForm_rigid (w : Nat → ℝ) : energyForm M P z x v w = 0 := by
  unfold energyForm cellEnergy
  refine sum_eq_zero fun k hk => sum_eq_zero fun c hc => ?_
  rw [sum_eq_zero, mul_zero]
  intro s _
  refine sum_eq_zero fun t _ => ?_
  rw [cell_rigid hM h hgood hv (mem_range.1 hk) (mem_range.1 hc)]
  ring

/-- **C47**: rigid motions are in the kernel of the stiffness matrix. -/
theorem C47_rigid {initF : Nat → Nat → Nat → Nat} {eF : Nat → Nat → List Nat}
    (heF : ∀ k j, IsSchedule (eF k j) (M.size (M.part k)))
    {o : List Nat} (ho : IsSchedule o M.nn) {sch : Nat → Nat → List Nat}
    {u : List ℝ} (hu : u.length = M.nn * M.ndof) (hz : z.length = M.nn)
    (hx : x.length = M.nn * M.dim)
    (hs : SchedOk M sch (M.npc * M.ndof * (M.npc * M.ndof))) :
    (M.gradientU (elastostatic Fad.fabs M (fun k => (P k).lift (penF k)) initF eF) o sch u z x).Sat fun J =>
      ∀ q, q < M.nn * M.ndof → ∑ j ∈ range (M.nn * M.ndof), J.dense q j * v j = 0 := by
  refine (C47_stiffness hM h heF ho hu hz hx hgood hs).mono ?_
  rintro J ⟨-, hJ⟩ q hq
  have := hJ v (Pi.single q 1)
  rwa [sum_single_left hq, energyForm_rigid hM h hgood hv] at this

/-- **C47**: without body loads the internal forces are in balance: no rigid motion does work on them,
so their resultant and their moment vanish. -/
theorem C47_balance {eR : Nat → Nat → List Nat} (heR : ∀ k j, IsSchedule (eR k j) (M.size (M.part k)))
    {init : Nat → Nat → Nat → Nat} {sch : Nat → Nat → List Nat} (hs : SchedOk M sch (M.npc * M.ndof))
    {u : List ℝ} (hu : u.length = M.nn * M.ndof) (hz : z.length = M.nn) (hx : x.length = M.nn * M.dim)
    (hload : ∀ k, k < M.domains.length → (P k).bodyLoads = []) :
    (M.value (elastostatic abs M P init eR) sch u z x).Sat fun r =>
      ∑ q ∈ range (M.nn * M.ndof), at0 r q * v q = 0 := by
  refine (C47_value hM h heR hu hz hx hs).mono ?_
  rintro r ⟨-, hr⟩
  simp only [hr, sum_mul]
  rw [sum_comm]
  refine sum_eq_zero fun k hk => ?_
  have hPd : (P k).d = M.dim := h.d k (mem_range.1 hk)
  have hd3 : (P k).d = 1 ∨ (P k).d = 2 ∨ (P k).d = 3 := by rw [hPd]; exact h.dim
  have hnd : M.npc * M.ndof = ((P k).d + 1) * (P k).d := by rw [h.ndof, FeModel.npc, hPd]
  rw [scatteredVec_pairing hM.mesh (hM.domOk k)]
  refine sum_eq_zero fun c hc => ?_
  have e : ∀ l, cellRow M P u z x k c l = (P k).forceRow abs (M.cellU u (gcell (M.part k) c))
      (M.cellZ z (gcell (M.part k) c)) (M.cellX x (gcell (M.part k) c)) l := by
    intro l
    unfold cellRow Elastostatic.loadRow
    rw [hload k (mem_range.1 hk)]
    simp
  simp only [e]
  rw [hnd, forceRow_work hd3, sum_eq_zero, mul_zero]
  intro s _
  rw [cell_rigid hM h hgood hv (mem_range.1 hk) (mem_range.1 hc), mul_zero]

end

/-- **C47**: with a positive definite material, positive penalty and positive cubature weight the only
displacements without energy are those without strain in any cell. -/
theorem C47_definite {M : FeModel} (hM : M.Ok) {P : Nat → Elastostatic ℝ} {penF : Nat → Fad → Fad}
    (h : ResOk M P) {initF : Nat → Nat → Nat → Nat} {eF : Nat → Nat → List Nat}
    (heF : ∀ k j, IsSchedule (eF k j) (M.size (M.part k)))
    {o : List Nat} (ho : IsSchedule o M.nn) {sch : Nat → Nat → List Nat}
    {u z x : List ℝ} (hu : u.length = M.nn * M.ndof) (hz : z.length = M.nn)
    (hx : x.length = M.nn * M.dim) (hgood : ∀ c, c < M.nc → goodCell M P penF (M.cellZ z c) (M.cellX x c))
    (hs : SchedOk M sch (M.npc * M.ndof * (M.npc * M.ndof)))
    (hw : ∀ k, k < M.domains.length → 0 < (P k).cubWeight)
    (hp : ∀ k c, k < M.domains.length → c < M.size (M.part k) →
      0 < (P k).pen (meanDensity ((P k).d + 1) (M.cellZ z (gcell (M.part k) c))))
    (hC : ∀ k e, k < M.domains.length → (∃ s, s < numVoigt (P k).d ∧ e s ≠ 0) → 0 < voigtEnergy (P k) e) :
    (M.gradientU (elastostatic Fad.fabs M (fun k => (P k).lift (penF k)) initF eF) o sch u z x).Sat fun J =>
      ∀ v : Nat → ℝ,
        ∑ q ∈ range (M.nn * M.ndof), v q * ∑ j ∈ range (M.nn * M.ndof), J.dense q j * v j = 0 ↔
          ∀ k c s, k < M.domains.length → c < M.size (M.part k) → s < numVoigt (P k).d →
            (P k).strainForm (fun l => v (cellDof M.npc M.ndof M.c2n (gcell (M.part k) c) l))
              (M.cellX x (gcell (M.part k) c)) s = 0 := by
  refine (C47_stiffness hM h heF ho hu hz hx hgood hs).mono ?_
  rintro J ⟨-, hJ⟩ v
  rw [hJ]
  have hE : ∀ k e, k < M.domains.length → 0 ≤ voigtEnergy (P k) e := by
    intro k e hk
    by_cases he : ∃ s, s < numVoigt (P k).d ∧ e s ≠ 0
    · exact (hC k e hk he).le
    · have he' : ∀ s, s < numVoigt (P k).d → e s = 0 := fun s hs => by
        by_contra h0
        exact he ⟨s, hs, h0⟩
      unfold voigtEnergy
      rw [sum_eq_zero]
      intro t ht
      exact sum_eq_zero fun s _ => by rw [he' t (mem_range.1 ht), mul_zero]
  have hf : ∀ k c, k < M.domains.length → c < M.size (M.part k) →
      0 < (P k).volForm abs (M.cellX x (gcell (M.part k) c)) *
        (P k).pen (meanDensity ((P k).d + 1) (M.cellZ z (gcell (M.part k) c))) := by
    intro k c hk hc
    refine mul_pos ?_ (hp k c hk hc)
    rw [volForm_eq, h.d k hk]
    exact mul_pos (abs_pos.2 (hgood _ ((hM.domOk k).1 c hc)).1) (hw k hk)
  unfold energyForm
  simp only [cellEnergy_self]
  rw [sum_eq_zero_iff_of_nonneg fun k hk => sum_nonneg fun c hc =>
    mul_nonneg (hf k c (mem_range.1 hk) (mem_range.1 hc)).le (hE k _ (mem_range.1 hk))]
  constructor
  · intro hz k c s hk hc hs
    have h1 := hz k (mem_range.2 hk)
    rw [sum_eq_zero_iff_of_nonneg fun c hc =>
      mul_nonneg (hf k c hk (mem_range.1 hc)).le (hE k _ hk)] at h1
    have h2 := h1 c (mem_range.2 hc)
    by_contra h0
    exact (mul_pos (hf k c hk hc) (hC k _ hk ⟨s, hs, h0⟩)).ne' h2
  · intro h0 k hk
    refine sum_eq_zero fun c hc => ?_
    unfold voigtEnergy
    rw [sum_eq_zero, mul_zero]
    intro t ht
    exact sum_eq_zero fun s _ => by
      rw [h0 k c t (mem_range.1 hk) (mem_range.1 hc) (mem_range.1 ht), mul_zero]

end Plato.Mech
