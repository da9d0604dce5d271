import Verif.J2.Pivot
import Mathlib.LinearAlgebra.Matrix.NonsingularInverse

/-!
# C66 on meshes
-/

namespace Plato.J2
open Finset Plato Plato.Mech Plato.Thermal

/-- `updateInverseLocalJacobian`, /repo/src/NewtonRaphsonSolver.hpp:104-113 and
/repo/src/PathDependentAdjointSolver.hpp:701-710: the inverse of `gradient_c` of the local residual. -/
noncomputable def inverseLocalJacobian (M : FeModel) (nl : Nat) (ev : LocalEv Fad) (sch : Nat → Nat → List Nat)
    (order orderI : List Nat) (A : Args ℝ) (out : V3 ℝ) : Res (V3 ℝ) := do
  let J ← localGradient M nl nl ⟨constOf, constOf, seedOf, constOf, constOf, constOf⟩ ev sch A
  let r ← blas3.inverse order orderI nl M.nc J out
  pure r.2

/-- A matrix without kernel has an inverse. -/
theorem isInverse_of_leading {n : ℕ} {a : ℕ → ℕ → ℝ} (h : blas3.Leading a n) : ∃ b, blas3.IsInverse n a b := by
  let A : Matrix (Fin n) (Fin n) ℝ := Matrix.of fun i j => a i j
  have hu : IsUnit A := by
    rw [← Matrix.mulVec_injective_iff_isUnit]
    refine (injective_iff_map_eq_zero (Matrix.mulVecLin A)).2 fun v hv => ?_
    funext j
    have := h (fun j => if hj : j < n then v ⟨j, hj⟩ else 0) (fun i hi => ?_) j j.2
    · simpa using this
    · have h1 := congrFun hv ⟨i, hi⟩
      rw [sum_range]
      simpa [A, Matrix.mulVec, dotProduct] using h1
  obtain ⟨B, hB⟩ := hu.exists_right_inv
  refine ⟨fun i j => if h : i < n ∧ j < n then B ⟨i, h.1⟩ ⟨j, h.2⟩ else 0, blas3.isInverse_of_right fun i j hi hj => ?_⟩
  have := congrFun (congrFun hB ⟨i, hi⟩) ⟨j, hj⟩
  rw [Matrix.mul_apply, Matrix.one_apply] at this
  rw [sum_range]
  simpa [A, Fin.ext_iff, hj] using this

/-! ## A cell -/

section Cell
variable {M : FeModel} {P : J2 ℝ} {pE pP : Fad → Fad} {A : Args ℝ} {cell : Nat}

/-- The matrix of a plastic cell, applied to a vector. -/
theorem dx_row (hd : M.dim = 2 ∨ M.dim = 3) (e : P.d = M.dim) (hp : 0 < (numbers M A cell).c 1)
    (hS : Smooth P pE pP (numbers M A cell)) (v : ℕ → ℝ) {i : ℕ} (hi : i < localDofs M.dim) :
    ∑ l ∈ range (localDofs M.dim), (rowOfF (P.lift pE pP) (cellData M (localDofs M.dim)
      ⟨constOf, constOf, seedOf, constOf, constOf, constOf⟩ A cell) i).dx l * v l =
      P.row (numbers M A cell).u (numbers M A cell).c (numbers M A cell).z (numbers M A cell).x v i := by
  have hd' : P.d = 2 ∨ P.d = 3 := by rw [e]; exact hd
  set D := numbers M A cell with hD
  have e0 : (fun i => D.c i + (0 : ℝ) * v i) = D.c := funext fun i => by ring
  have hrow : rowOfF (P.lift pE pP) (cellData M (localDofs M.dim)
      ⟨constOf, constOf, seedOf, constOf, constOf, constOf⟩ A cell) i = (P.lift pE pP).evalForm Fad.sqrt true
      (fun l => Fad.const (D.u l)) (fun l => Fad.seed l (D.c l)) (fun l => Fad.const (D.cp l))
      (fun l => Fad.const (D.z l)) (fun a k => Fad.const (D.x a k)) i := by
    unfold rowOfF
    rw [show Fad.pos ((cellData M (localDofs M.dim) ⟨constOf, constOf, seedOf, constOf, constOf, constOf⟩ A cell).c 1) =
      true from decide_eq_true hp]
    rfl
  have ht := evalForm_plastic_tracks (E := ℝ) (L := fun l => v l • ContinuousLinearMap.id ℝ ℝ)
    (N := localDofs M.dim) (x := 0) (pE := pE) (pP := pP) (i := i) hd' (UF := fun l => Fad.const (D.u l))
    (CF := fun l => Fad.seed l (D.c l)) (CpF := fun l => Fad.const (D.cp l))
    (ZF := fun l => Fad.const (D.z l)) (XF := fun a k => Fad.const (D.x a k))
    (U := fun _ => D.u) (C := fun t i => D.c i + t * v i) (Cp := fun _ => D.cp) (Z := fun _ => D.z) (X := fun _ => D.x)
    (fun _ _ => Tracks.const _) (fun l hl => ⟨by simp [Fad.seed], by
      rw [sum_eq_single_of_mem l (mem_range.2 (by rwa [← e]))]
      · simp only [Fad.seed, Fad.dx_mk, Pi.single_eq_same, one_smul]
        have h1 : HasDerivAt (fun t : ℝ => D.c l + t * v l) (v l) 0 := by
          simpa using ((hasDerivAt_id (0 : ℝ)).mul_const (v l)).const_add (D.c l)
        refine h1.hasFDerivAt.congr_fderiv ?_
        ext
        simp
      · intro j _ hj
        simp [Fad.seed, Pi.single_eq_of_ne hj]⟩)
    (fun _ _ => Tracks.const _) (fun _ _ => Tracks.const _) (fun _ _ _ _ => Tracks.const _) (D := D) (by
      rw [e0]) hS (by rwa [e])
  have h2 := row_line (Cp := D.cp) (v := v) hd' hS.eta i
  have h3 := ht.deriv.hasDerivAt
  rw [hrow]
  rw [← h3.unique h2, _root_.sum_apply]
  exact sum_congr rfl fun l _ => by simp

/-- What makes the matrix of a plastic cell regular: the shear modulus is positive, the moduli of hardening are not
negative, the backstress has no mean part. -/
structure Regular (P : J2 ℝ) (D : CellData ℝ) : Prop where
  mu : 0 < (P.mat D.z).mu
  K : 0 ≤ (P.mat D.z).K
  H : 0 ≤ (P.mat D.z).H
  back : (point P.d D.c).back.trace = 0

theorem back_trace (hd : P.d = 2 ∨ P.d = 3) (C : ℕ → ℝ) :
    (point P.d C).back.trace = tr (stressTerms P.d) (isNormal P.d) fun t => C (2 + stressTerms P.d + t) := by
  rcases hd with h | h <;> rw [h] <;>
    simp [point, stressTensor, Matrix.trace, Fin.sum_univ_three, tr, stressTerms, isNormal, sum_range_succ]

section Facts
variable (hd : P.d = 2 ∨ P.d = 3) {D : CellData ℝ} (hη : sqForm P.d (P.eta D.u D.c D.z D.x) ≠ 0) (hR : Regular P D)
include hd hη hR

theorem facts : 0 < P.norm Real.sqrt D.u D.c D.z D.x ∧
    ip (stressTerms P.d) (isNormal P.d) (P.dir Real.sqrt D.u D.c D.z D.x) (P.dir Real.sqrt D.u D.c D.z D.x) = 1 ∧
    tr (stressTerms P.d) (isNormal P.d) (P.dir Real.sqrt D.u D.c D.z D.x) = 0 := by
  have hn : 0 < P.norm Real.sqrt D.u D.c D.z D.x := by
    unfold J2.norm
    exact Real.sqrt_pos.2 (lt_of_le_of_ne (sqForm_nonneg _) (Ne.symm hη))
  have hunit : ip (stressTerms P.d) (isNormal P.d) (P.dir Real.sqrt D.u D.c D.z D.x)
      (P.dir Real.sqrt D.u D.c D.z D.x) = 1 := by
    have e1 : ip (stressTerms P.d) (isNormal P.d) (P.dir Real.sqrt D.u D.c D.z D.x) (P.dir Real.sqrt D.u D.c D.z D.x) =
        sqForm P.d (P.eta D.u D.c D.z D.x) / (P.norm Real.sqrt D.u D.c D.z D.x) ^ 2 := by
      rw [sqForm_eq]
      unfold ip
      rw [sum_div]
      exact sum_congr rfl fun k _ => by unfold J2.dir; ring
    rw [e1]
    unfold J2.norm
    rw [Real.sq_sqrt (sqForm_nonneg _), div_self hη]
  have htr : tr (stressTerms P.d) (isNormal P.d) (P.dir Real.sqrt D.u D.c D.z D.x) = 0 := by
    have e1 : tr (stressTerms P.d) (isNormal P.d) (P.dir Real.sqrt D.u D.c D.z D.x) =
        (tr (stressTerms P.d) (isNormal P.d) (fun k => 1 * dv (stressTerms P.d) (isNormal P.d) (P.mat D.z).mu
          (P.elasticOf (P.total D.u D.x) D.u D.c) k + (-1) * D.c (2 + stressTerms P.d + k))) /
          P.norm Real.sqrt D.u D.c D.z D.x := by
      unfold tr
      rw [sum_div]
      refine sum_congr rfl fun k _ => ?_
      unfold J2.dir J2.eta etaForm
      rw [devForm_eq hd]
      show (if _ then (dv _ _ (P.mat D.z).mu _ k - _) / _ else _) = _
      split <;> ring
    rw [e1, tr_lin (c := fun k => D.c (2 + stressTerms P.d + k)), tr_dv (three hd), ← back_trace hd, hR.back]
    simp
  exact ⟨hn, hunit, htr⟩

theorem vary_of_rows (h32 : P.s32 = √(3 / 2)) (h23 : P.s23 = √(2 / 3)) (hp : 0 < D.c 1) {v : ℕ → ℝ}
    (hv : ∀ i, i < 2 → P.row D.u D.c D.z D.x v i = 0) :
    Vary (stressTerms P.d) (isNormal P.d) (P.mat D.z).mu (P.mat D.z).K P.s32 (P.s23 * (P.mat D.z).H)
      (P.norm Real.sqrt D.u D.c D.z D.x) (D.c 1) (P.dir Real.sqrt D.u D.c D.z D.x) (v 0) (v 1) (fun k => v (2 + k))
      (fun k => v (2 + stressTerms P.d + k)) (P.vary D.z v) (P.flow D.u D.c D.z D.x v) := by
  obtain ⟨hn, hunit, -⟩ := facts hd hη hR
  refine ⟨three hd, hR.mu, hR.K, by rw [h32]; exact s32_pos, mul_nonneg (by rw [h23]; exact s23_pos.le) hR.H, hn, hp,
    hunit, fun k _ => rfl, fun k _ => rfl, ?_, ?_⟩
  · have h0 := hv 0 (by omega)
    unfold J2.row at h0
    rw [if_pos rfl] at h0
    linarith
  · have h0 := hv 1 (by omega)
    unfold J2.row at h0
    rw [if_neg (by omega), if_pos rfl] at h0
    linarith

end Facts

theorem row_strain {D : CellData ℝ} {v : ℕ → ℝ} {k : ℕ} (hk : k < stressTerms P.d)
    (h0 : P.row D.u D.c D.z D.x v (2 + k) = 0) :
    v (2 + k) = P.s32 * wt (isNormal P.d k) * P.flow D.u D.c D.z D.x v k := by
  unfold J2.row at h0
  rw [if_neg (by omega), if_neg (by omega), if_pos (by omega), Nat.add_sub_cancel_left] at h0
  linarith

theorem row_back {D : CellData ℝ} {v : ℕ → ℝ} {k : ℕ} (h0 : P.row D.u D.c D.z D.x v (2 + stressTerms P.d + k) = 0) :
    v (2 + stressTerms P.d + k) = P.s23 * (P.mat D.z).H * P.flow D.u D.c D.z D.x v k := by
  unfold J2.row at h0
  rw [if_neg (by omega), if_neg (by omega), if_neg (by omega),
    show 2 + stressTerms P.d + k - 2 - stressTerms P.d = k by omega] at h0
  linarith

/-- The matrix of a plastic cell is regular, also without hardening. -/
theorem regular_plastic (hd : P.d = 2 ∨ P.d = 3) (h32 : P.s32 = √(3 / 2)) (h23 : P.s23 = √(2 / 3)) {D : CellData ℝ}
    (hp : 0 < D.c 1) (hη : sqForm P.d (P.eta D.u D.c D.z D.x) ≠ 0) (hR : Regular P D) {J : ℕ → ℕ → ℝ}
    (hJ : ∀ v i, i < localDofs P.d → ∑ l ∈ range (localDofs P.d), J i l * v l = P.row D.u D.c D.z D.x v i) :
    blas3.Leading J (localDofs P.d) := by
  have hle := stressTerms_eq hd
  intro v hv0
  have hv : ∀ i, i < localDofs P.d → P.row D.u D.c D.z D.x v i = 0 := fun i hi => by rw [← hJ v i hi, hv0 i hi]
  have hV := vary_of_rows hd hη hR h32 h23 hp (v := v) fun i hi => hv i (by omega)
  obtain ⟨h0, h1, h2⟩ := hV.whole (facts hd hη hR).2.2 (fun k hk => row_strain hk (hv _ (by omega)))
    fun k hk => row_back (hv _ (by omega))
  intro j hj
  rcases Nat.lt_or_ge j 2 with h | h
  · interval_cases j
    · exact h0
    · rw [← hV.r0]; exact h0
  rcases Nat.lt_or_ge j (2 + stressTerms P.d) with h' | h'
  · have := h1 (j - 2) (by omega)
    rwa [show 2 + (j - 2) = j by omega] at this
  · have := h2 (j - 2 - stressTerms P.d) (by omega)
    rwa [show 2 + stressTerms P.d + (j - 2 - stressTerms P.d) = j by omega] at this

/-- No leading block of the matrix of a plastic cell is singular. -/
theorem leading_plastic (hd : P.d = 2 ∨ P.d = 3) (h32 : P.s32 = √(3 / 2)) (h23 : P.s23 = √(2 / 3)) {D : CellData ℝ}
    (hp : 0 < D.c 1) (hη : sqForm P.d (P.eta D.u D.c D.z D.x) ≠ 0) (hR : Regular P D)
    (hK : 0 < (P.mat D.z).K) {J : ℕ → ℕ → ℝ}
    (hJ : ∀ v i, i < localDofs P.d → ∑ l ∈ range (localDofs P.d), J i l * v l = P.row D.u D.c D.z D.x v i)
    {m : ℕ} (hm : m ≤ localDofs P.d) : blas3.Leading J m := by
  have hle := stressTerms_eq hd
  intro v0 hv0
  let v : ℕ → ℝ := fun j => if j < m then v0 j else 0
  have hvm : ∀ j, ¬ j < m → v j = 0 := fun j hj => if_neg hj
  have hv : ∀ i, i < m → P.row D.u D.c D.z D.x v i = 0 := fun i hi => by
    rw [← hJ v i (by omega), ← hv0 i hi]
    symm
    refine sum_subset_zero_on_sdiff (range_subset_range.2 hm) (fun j hj => ?_) fun j hj => ?_
    · rw [mem_sdiff, mem_range, mem_range] at hj
      rw [hvm j hj.2, mul_zero]
    · rw [show v j = v0 j from if_pos (mem_range.1 hj)]
  suffices ∀ j, j < m → v j = 0 by
    intro j hj
    have := this j hj
    rwa [show v j = v0 j from if_pos hj] at this
  have hst : 0 < stressTerms P.d := by rcases hd with h | h <;> rw [h] <;> decide
  rcases Nat.lt_or_ge m 2 with h2 | h2
  · intro j hj
    have : m = 1 := by omega
    subst this
    have h0 := hv 0 (by omega)
    unfold J2.row at h0
    rw [if_pos rfl, hvm 1 (by omega), sub_zero] at h0
    rw [show j = 0 by omega]
    exact h0
  have hV := vary_of_rows hd hη hR h32 h23 hp (v := v) fun i hi => hv i (by omega)
  have hrp : ∀ k, k < stressTerms P.d → 2 + k < m → _ := fun k hk hkm => row_strain hk (hv (2 + k) hkm)
  have hrb : ∀ k, k < stressTerms P.d → 2 + stressTerms P.d + k < m → _ := fun k _ hkm => row_back (hv _ hkm)
  have hβ : ∀ k, k < stressTerms P.d → v (2 + stressTerms P.d + k) = 0 := by
    rcases Nat.lt_or_ge (2 + stressTerms P.d) m with h | h
    · refine hV.back hK (fun k hk => hrp k hk (by omega)) fun k hk => ?_
      rcases Nat.lt_or_ge (2 + stressTerms P.d + k) m with h' | h'
      · exact .inr (hrb k hk h')
      · exact .inl (hvm _ (by omega))
    · exact fun k _ => hvm _ (by omega)
  obtain ⟨hp0, hv00⟩ := hV.strain hK (facts hd hη hR).2.2 (fun k hk => by
    rcases Nat.lt_or_ge (2 + k) m with h' | h'
    · exact .inr (hrp k hk h')
    · exact .inl (hvm _ (by omega))) hβ
  intro j hj
  rcases Nat.lt_or_ge j 2 with h | h
  · interval_cases j
    · exact hv00
    · rw [← hV.r0]; exact hv00
  rcases Nat.lt_or_ge j (2 + stressTerms P.d) with h' | h'
  · have := hp0 (j - 2) (by omega)
    rwa [show 2 + (j - 2) = j by omega] at this
  · have := hβ (j - 2 - stressTerms P.d) (by omega)
    rwa [show 2 + stressTerms P.d + (j - 2 - stressTerms P.d) = j by omega] at this

theorem leading_one {J : ℕ → ℕ → ℝ} {n m : ℕ} (hJ : ∀ i j, i < n → j < n → J i j = if i = j then 1 else 0)
    (hm : m ≤ n) : blas3.Leading J m := by
  intro v hv j hj
  rw [← hv j hj, sum_congr rfl fun q hq => by
    rw [hJ j q (by omega) (by have := mem_range.1 hq; omega)]]
  simp [hj]

end Cell

/-! ## Meshes -/

/-- The factors of one cell break down. -/
theorem inverse_ub {order orderI : List Nat} {n nC : Nat} {A I : V3 ℝ} (hn : 2 < n) (hO : IsSchedule order nC) (hOI : IsSchedule orderI nC)
    (hA : A.d0 = nC ∧ A.d1 = n ∧ A.d2 = n) (hI : I.d0 = nC ∧ I.d1 = n ∧ I.d2 = n) {c : Nat} (hc : c < nC)
    (h : blas3.lu n (A.e c) = .ub) : blas3.inverse order orderI n nC A I = .ub := by
  have hAs : 0 < A.size := by
    unfold V3.size; rw [hA.1, hA.2.1, hA.2.2]
    exact Nat.mul_pos (Nat.mul_pos (by omega) (by omega)) (by omega)
  have hIs : I.size = A.size := by
    unfold V3.size; rw [hA.1, hA.2.1, hA.2.2, hI.1, hI.2.1, hI.2.2]
  unfold blas3.inverse
  rw [if_neg (by omega), if_neg (by omega), if_neg (by omega),
    blas3.C41_identity hOI (by omega) hI.1 hI.2.1.ge hI.2.2.ge, Res.ok_bind]
  have wlu : ∀ n (a : ℕ → ℕ → ℝ), Weak (fun _ => True) (blas3.lu n a) := fun n a =>
    Weak.forRange (fun p b _ => by unfold blas3.luStep; split <;> trivial) trivial
  have wlo : ∀ n (a b : ℕ → ℕ → ℝ), Weak (fun _ => True) (blas3.trsmLower n a b) := fun n a b => by
    unfold blas3.trsmLower
    refine Weak.forRange (P := fun _ => True) ?_ trivial
    intro p b _
    trivial
  have wup : ∀ n (a b : ℕ → ℕ → ℝ), Weak (fun _ => True) (blas3.trsmUpper n a b) := fun n a b =>
    Weak.forRange (fun p b _ => by dsimp only; split <;> trivial) trivial
  refine parFor_weak_ub (P := fun s : V3 ℝ × V3 ℝ => s.1.d1 = n ∧ s.1.e c = A.e c) ?_ order _ ⟨hA.2.1, rfl⟩
    ⟨c, hO.mem_iff.2 (List.mem_range.2 hc), ?_⟩
  · rintro i s ⟨s1, s2⟩
    unfold blas3.inverseCell
    split
    · by_cases hic : i = c
      · rw [hic, s1, s2, h]; trivial
      · refine (wlu _ _).bind fun a _ => (wlo _ _ _).bind fun b _ => (wup _ _ _).bind fun b _ => ?_
        refine ⟨s1, ?_⟩
        show (if c = i then a else s.1.e c) = _
        rw [if_neg (Ne.symm hic), s2]
    · trivial
  · rintro s ⟨s1, s2⟩
    unfold blas3.inverseCell
    split
    · rw [s1, s2, h]; rfl
    · rfl

section Mesh
variable {M : FeModel} (hM : M.Ok) (hB : Blocks M) (hcov : ∀ cell, cell < M.nc → ∃ k, k < M.domains.length ∧ cell ∈ dom M k)
  {P : Nat → J2 ℝ} (hJ : JOk M P) (hc : Consts M P) {pE pP : Nat → Fad → Fad} {A : Args ℝ}
  (hA : A.Ok M (localDofs M.dim)) {ord : Nat → List Nat} (ho : OrdOk M ord)
  {sch : Nat → Nat → List Nat} (hs : LSched M sch) {order orderI : List Nat} (hO : IsSchedule order M.nc)
  (hOI : IsSchedule orderI M.nc) {out : V3 ℝ}
  (hout : out.d0 = M.nc ∧ out.d1 = localDofs M.dim ∧ out.d2 = localDofs M.dim) (h0 : M.nc ≠ 0)
include hM hB hJ hA ho hs hO hOI hout h0

include hcov hc in
omit hO hOI hout h0 in
/-- All leading blocks of the derivative of the local residual by the local state are regular. -/
theorem leading_local_jacobian (hcell : EachCell M fun k cell => 0 < at0 A.c (cell * localDofs M.dim + 1) →
      Smooth (P k) (pE k) (pP k) (numbers M A cell) ∧ Regular (P k) (numbers M A cell) ∧ 0 < (matOf M P A k cell).K) :
    ∃ J : V3 ℝ, localGradient M (localDofs M.dim) (localDofs M.dim)
        ⟨constOf, constOf, seedOf, constOf, constOf, constOf⟩ (residualF M P pE pP ord) sch A = .ok J ∧
      (J.d0 = M.nc ∧ J.d1 = localDofs M.dim ∧ J.d2 = localDofs M.dim) ∧
      ∀ c, c < M.nc → ∀ m, m ≤ localDofs M.dim → blas3.Leading (J.e c) m := by
  obtain ⟨J, hJ1, hJd, hJ2, -⟩ := C64_gradient hM hB localDofs_pos hs localDofs_pos
    (mk := ⟨constOf, constOf, seedOf, constOf, constOf, constOf⟩)
    (residualF_rowWise (pE := pE) (pP := pP) hM hB hJ ho) hA
  obtain ⟨J', hJ1', hel⟩ := C65_gradient_c_elastic (pE := pE) (pP := pP) hM hB hJ hA ho hs
  rw [hJ1] at hJ1'
  injection hJ1' with hJJ
  subst hJJ
  refine ⟨J, hJ1, hJd, ?_⟩
  intro c hcn m hm
  obtain ⟨k, hk, hck⟩ := hcov c hcn
  rcases le_or_gt (at0 A.c (c * localDofs M.dim + 1)) 0 with h | h
  · exact leading_one (hel k hk c hck h) hm
  · obtain ⟨h1, h2⟩ := hcell k hk c hck h
    have e := hJ.d k hk
    have hd : (P k).d = 2 ∨ (P k).d = 3 := by rw [e]; exact hJ.dim
    refine leading_plastic hd (hc k hk).1 (hc k hk).2 (D := numbers M A c) h h1.eta h2.1 h2.2 (fun v i hi => ?_)
      (by rwa [e])
    rw [← dx_row hJ.dim e h h1 v (by rwa [← e]), e]
    refine sum_congr rfl fun l hl => ?_
    rw [hJ2 k hk c hck i l (by rwa [← e]) (mem_range.1 hl)]

include hcov hc in
/-- **C66**: the array returned by `updateInverseLocalJacobian` holds for every cell the inverse of the derivative of
the local residual by the local state, if in every cell with plastic flow the isotropic hardening is positive. -/
theorem C66_local_jacobian_partial (hcell : EachCell M fun k cell => 0 < at0 A.c (cell * localDofs M.dim + 1) →
      Smooth (P k) (pE k) (pP k) (numbers M A cell) ∧ Regular (P k) (numbers M A cell) ∧ 0 < (matOf M P A k cell).K) :
    ∃ J I : V3 ℝ, localGradient M (localDofs M.dim) (localDofs M.dim)
        ⟨constOf, constOf, seedOf, constOf, constOf, constOf⟩ (residualF M P pE pP ord) sch A = .ok J ∧
      inverseLocalJacobian M (localDofs M.dim) (residualF M P pE pP ord) sch order orderI A out = .ok I ∧
      (I.d0 = M.nc ∧ I.d1 = localDofs M.dim ∧ I.d2 = localDofs M.dim) ∧
      ∀ cell, cell < M.nc → blas3.IsInverse (localDofs M.dim) (J.e cell) (I.e cell) := by
  obtain ⟨J, hJ1, hJd, hL⟩ := leading_local_jacobian hM hB hcov hJ hc hA ho hs hcell
  obtain ⟨r, hr, h1, h2, h3, h4⟩ := blas3.C66_inverse hO hOI (Nat.pos_of_ne_zero localDofs_pos)
    (Nat.pos_of_ne_zero h0) hJd hout hL
  refine ⟨J, r.2, hJ1, ?_, ⟨h1, h2, h3⟩, h4⟩
  unfold inverseLocalJacobian
  rw [hJ1, Res.ok_bind, hr, Res.ok_bind, Res.pure_eq]

include hc in
omit h0 in
/-- **C66, refutation**: without isotropic hardening every cell with plastic flow makes the factors divide by zero,
though its matrix is regular. -/
theorem C66_inverse_false {k cell : Nat} (hk : k < M.domains.length) (hcell : cell ∈ dom M k)
    (hp : 0 < at0 A.c (cell * localDofs M.dim + 1)) (hS : Smooth (P k) (pE k) (pP k) (numbers M A cell))
    (hR : Regular (P k) (numbers M A cell)) (hK : (matOf M P A k cell).K = 0) :
    ∃ J : V3 ℝ, localGradient M (localDofs M.dim) (localDofs M.dim)
        ⟨constOf, constOf, seedOf, constOf, constOf, constOf⟩ (residualF M P pE pP ord) sch A = .ok J ∧
      (∃ b, blas3.IsInverse (localDofs M.dim) (J.e cell) b) ∧
      inverseLocalJacobian M (localDofs M.dim) (residualF M P pE pP ord) sch order orderI A out = .ub := by
  obtain ⟨J, hJ1, hJd, hJ2, -⟩ := C64_gradient hM hB localDofs_pos hs localDofs_pos
    (mk := ⟨constOf, constOf, seedOf, constOf, constOf, constOf⟩)
    (residualF_rowWise (pE := pE) (pP := pP) hM hB hJ ho) hA
  have hle := stressTerms_eq hJ.dim
  have hst : 0 < stressTerms M.dim := by rcases hJ.dim with h | h <;> rw [h] <;> decide
  have e := hJ.d k hk
  have hrow : ∀ i j, i < localDofs M.dim → j < localDofs M.dim → J.e cell i j =
      (P k).row (numbers M A cell).u (numbers M A cell).c (numbers M A cell).z (numbers M A cell).x
        (fun l => if l = j then 1 else 0) i := by
    intro i j hi hj
    rw [← dx_row hJ.dim e hp hS _ hi, hJ2 k hk cell hcell i j hi hj]
    simp [hj]
  have h1 : ∀ j, j < 2 → (P k).vary (numbers M A cell).z (fun l => if l = j then 1 else 0) = fun _ => 0 := by
    intro j hj
    funext t
    unfold J2.vary dv tr
    have h2 : ∀ t, (2 + t = j) = False := fun t => by simp; omega
    have h3 : ∀ t, (2 + stressTerms (P k).d + t = j) = False := fun t => by simp; omega
    simp [h2, h3]
  have hip : ∀ a, ip (stressTerms (P k).d) (isNormal (P k).d) a (fun _ => 0) = 0 := fun a => by simp [ip]
  have hlu : blas3.lu (localDofs M.dim) (J.e cell) = .ub := by
    refine blas3.lu_ub (by omega) ?_ ?_
    · rw [hrow 0 0 (by omega) (by omega)]
      simp [J2.row]
    · have hK' : ((P k).mat (numbers M A cell).z).K = 0 := hK
      rw [hrow 1 1 (by omega) (by omega), hrow 1 0 (by omega) (by omega)]
      unfold J2.row
      rw [h1 1 (by omega), h1 0 (by omega), hip, hK']
      simp
  have hub := inverse_ub (n := localDofs M.dim) (nC := M.nc) (A := J) (I := out)
    (by omega) hO hOI hJd hout (dom_lt hM hk hcell) hlu
  have hd : (P k).d = 2 ∨ (P k).d = 3 := by rw [e]; exact hJ.dim
  refine ⟨J, hJ1, isInverse_of_leading ?_, ?_⟩
  · rw [← e]
    refine regular_plastic hd (hc k hk).1 (hc k hk).2 (D := numbers M A cell) hp hS.eta hR fun v i hi => ?_
    rw [← dx_row hJ.dim e hp hS v (by rwa [← e]), e]
    refine sum_congr rfl fun l hl => ?_
    rw [hJ2 k hk cell hcell i l (by rwa [← e]) (mem_range.1 hl)]
  · unfold inverseLocalJacobian
    rw [hJ1, Res.ok_bind, hub]
    rfl

include hc in
omit ho hs hO hOI hout h0 in
/-- At the local states returned by the update, from any reachable states, the cells in flow are smooth and regular. -/
theorem update_flow (hm : EachCell M fun k cell => (matOf M P A k cell).Ok ∧ 0 < (matOf M P A k cell).K)
    (hpt : EachCell M fun _ cell => (stateOf M A.cp cell).Ok)
    (hsm : EachCell M fun k cell => detForm M.dim (numbers M A cell).x ≠ 0 ∧
      PenOk (pE k) (P k).penE (meanDensity (M.dim + 1) (numbers M A cell).z) ∧
      PenOk (pP k) (P k).penP (meanDensity (M.dim + 1) (numbers M A cell).z))
    {ordU : Nat → List Nat} (hoU : OrdOk M ordU) {schU : Nat → Nat → List Nat} (hsU : LSched M schU) :
    (j2Update M P ordU schU A).Sat fun c => c.length = M.nc * localDofs M.dim ∧
      EachCell M fun k cell => 0 < at0 c (cell * localDofs M.dim + 1) →
        Smooth (P k) (pE k) (pP k) (numbers M { A with c := c } cell) ∧ Regular (P k) (numbers M { A with c := c } cell) ∧
          0 < (matOf M P { A with c := c } k cell).K := by
  refine (C63_update hM hB hJ hc hA (fun k hk cell hcell => (hm k hk cell hcell).1) hpt hoU hsU).mono ?_
  rintro c ⟨c0, c1, -⟩
  refine ⟨c0, ?_⟩
  intro k hk cell hcell hpos
  obtain ⟨hmk, hKk⟩ := hm k hk cell hcell
  have hret := c1 k hk cell hcell
  have e := hJ.d k hk
  have hd : (P k).d = 2 ∨ (P k).d = 3 := by rw [e]; exact hJ.dim
  obtain ⟨hq, -⟩ := returned_facts hmk (hpt k hk cell hcell) hret
  obtain ⟨N, hN, -, hbk⟩ := hret.flow
  have hnp := (Returned.unit hmk (hpt k hk cell hcell) hret hpos hN hbk).2.2
  obtain ⟨s1, s2, s3⟩ := hsm k hk cell hcell
  have hst : point (P k).d (numbers M { A with c := c } cell).c = stateOf M c cell := by
    rw [e]; rfl
  refine ⟨⟨by rw [e]; exact s1, by rw [e]; exact s2, by rw [e]; exact s3, ?_⟩,
    ⟨hmk.mu, hmk.K, hmk.H, by rw [hst]; exact hq.back⟩, hKk⟩
  intro h
  have hn := norm_tensor (P := P k) (U := (numbers M { A with c := c } cell).u)
    (C := (numbers M { A with c := c } cell).c) (Z := (numbers M { A with c := c } cell).z)
    (X := (numbers M { A with c := c } cell).x) hd
  unfold J2.norm at hn
  rw [h, Real.sqrt_zero, hst] at hn
  exact absurd hn (ne_of_lt hnp)

include hcov hc in
omit hout h0 in
/-- **C66**, along the solution: at the local states returned by the update, from any reachable states, the array holds
the inverses. -/
theorem C66_update_partial (hm : EachCell M fun k cell => (matOf M P A k cell).Ok ∧ 0 < (matOf M P A k cell).K)
    (hpt : EachCell M fun _ cell => (stateOf M A.cp cell).Ok)
    (hsm : EachCell M fun k cell => detForm M.dim (numbers M A cell).x ≠ 0 ∧
      PenOk (pE k) (P k).penE (meanDensity (M.dim + 1) (numbers M A cell).z) ∧
      PenOk (pP k) (P k).penP (meanDensity (M.dim + 1) (numbers M A cell).z))
    (hout : out.d0 = M.nc ∧ out.d1 = localDofs M.dim ∧ out.d2 = localDofs M.dim) (h0 : M.nc ≠ 0)
    {ordU : Nat → List Nat} (hoU : OrdOk M ordU) {schU : Nat → Nat → List Nat} (hsU : LSched M schU) :
    (j2Update M P ordU schU A).Sat fun c =>
      ∃ J I : V3 ℝ, localGradient M (localDofs M.dim) (localDofs M.dim)
        ⟨constOf, constOf, seedOf, constOf, constOf, constOf⟩ (residualF M P pE pP ord) sch { A with c := c } = .ok J ∧
      inverseLocalJacobian M (localDofs M.dim) (residualF M P pE pP ord) sch order orderI { A with c := c } out =
        .ok I ∧
      (I.d0 = M.nc ∧ I.d1 = localDofs M.dim ∧ I.d2 = localDofs M.dim) ∧
      ∀ cell, cell < M.nc → blas3.IsInverse (localDofs M.dim) (J.e cell) (I.e cell) := by
  refine (update_flow hM hB hJ hc hA hm hpt hsm hoU hsU).mono ?_
  rintro c ⟨c0, c1⟩
  have hA' : ({ A with c := c } : Args ℝ).Ok M (localDofs M.dim) := ⟨hA.u, hA.up, c0, hA.cp, hA.z, hA.x⟩
  exact C66_local_jacobian_partial hM hB hcov hJ hc hA' ho hs hO hOI hout h0 c1

end Mesh

end Plato.J2
