import Verif.J2.Props
import Verif.Mech.Gradients
import Mathlib.Analysis.SpecialFunctions.Sqrt

/-!
# C65: derivatives of the local residual of J2 plasticity
-/

namespace Plato.Mech

/-- `sqrt` of an automatic differentiation value (Sacado).  The derivative at zero is zero there and here. -/
noncomputable def Fad.sqrt (a : Fad) : Fad := .mk (√a.val) fun k => a.dx k / (2 * √a.val)

/-- `a > 0.0` compares the value. -/
noncomputable def Fad.pos (a : Fad) : Bool := decide (0 < a.val)

end Plato.Mech

namespace Plato.J2
open Finset Plato Plato.Mech Plato.Thermal

/-- The residual evaluated with automatic differentiation values: the same object with the other template
arguments. -/
noncomputable def J2.lift (P : J2 ℝ) (pE pP : Fad → Fad) : J2 Fad where
  d := P.d
  thermal := P.thermal
  basis := P.basis.map Fad.const
  shear := Fad.const P.shear
  alpha := Fad.const P.alpha
  tref := Fad.const P.tref
  tscale := Fad.const P.tscale
  hardIso := Fad.const P.hardIso
  hardKin := Fad.const P.hardKin
  yield0 := Fad.const P.yield0
  penE := pE
  penP := pP
  s32 := Fad.const P.s32
  s23 := Fad.const P.s23

section Tracks
variable {E : Type} [NormedAddCommGroup E] [NormedSpace ℝ E] {L : ℕ → E →L[ℝ] ℝ} {N : ℕ} {x : E}

theorem sqrt_tracks {a : Fad} {f : E → ℝ} (ha : Tracks L N x a f) (h : f x ≠ 0) :
    Tracks L N x (Fad.sqrt a) fun y => √(f y) :=
  ha.comp (Real.hasDerivAt_sqrt h) (by rw [← ha.val]; rfl) fun k => by
    show a.dx k / (2 * √a.val) = _
    rw [ha.val]; ring

theorem two_tracks : Tracks L N x (2 : Fad) fun _ => (2 : ℝ) := by
  simpa using Tracks.natCast (L := L) (N := N) (x := x) 2

theorem three_tracks : Tracks L N x (3 : Fad) fun _ => (3 : ℝ) := by
  simpa using Tracks.natCast (L := L) (N := N) (x := x) 3

variable {P : J2 ℝ} {pE pP : Fad → Fad} (hd : P.d = 2 ∨ P.d = 3)
  {UF CF CpF ZF : ℕ → Fad} {XF : ℕ → ℕ → Fad} {U C Cp Z : E → ℕ → ℝ} {X : E → ℕ → ℕ → ℝ}
  (hU : ∀ l, l < (P.d + 1) * P.ndof → Tracks L N x (UF l) fun y => U y l)
  (hC : ∀ i, i < localDofs P.d → Tracks L N x (CF i) fun y => C y i)
  (hCp : ∀ i, i < localDofs P.d → Tracks L N x (CpF i) fun y => Cp y i)
  (hZ : ∀ a, a < P.d + 1 → Tracks L N x (ZF a) fun y => Z y a)
  (hX : ∀ a k, a < P.d + 1 → k < P.d → Tracks L N x (XF a k) fun y => X y a k)

/-- Where the residual of a plastic cell is differentiable: the cell has a volume, the two functions of the
density have the derivatives computed for them, the stress is not at the centre of the yield surface. -/
structure Smooth (P : J2 ℝ) (pE pP : Fad → Fad) (D : CellData ℝ) : Prop where
  det : detForm P.d D.x ≠ 0
  penE : PenOk pE P.penE (meanDensity (P.d + 1) D.z)
  penP : PenOk pP P.penP (meanDensity (P.d + 1) D.z)
  eta : sqForm P.d (P.eta D.u D.c D.z D.x) ≠ 0

include hd hU in
theorem total_tracks (hX : ∀ a k, a < P.d + 1 → k < P.d → Tracks L N x (XF a k) fun y => X y a k)
    (hdet : detForm P.d (X x) ≠ 0) (t : ℕ) :
    Tracks L N x ((P.lift pE pP).total UF XF t) fun y => P.total (U y) (X y) t := by
  have hd' : P.d = 1 ∨ P.d = 2 ∨ P.d = 3 := .inr hd
  have hn := P.le_ndof
  unfold J2.total
  refine Tracks.ite ?_ Tracks.zero
  exact voigtStrain_tracks hd' (fun n i hn' hi => hU _ (local_lt hn' (show i < P.ndof by omega)))
    fun n k _ hk => gradForm_tracks hd' hX hdet hk

include hU in
theorem therm_tracks : Tracks L N x ((P.lift pE pP).therm UF) fun y => P.therm (U y) := by
  unfold J2.therm J2.temp
  by_cases h : P.thermal
  · have e : (P.lift pE pP).thermal = true := h
    simp only [h, e, if_true]
    refine (Tracks.const _).mul ((Tracks.mul (Tracks.sum _ fun n hn => (hU _ ?_).mul (at0_const_tracks _ _))
      (Tracks.const _)).sub (Tracks.const _))
    exact local_lt (mem_range.1 hn) (by
      show P.d < P.ndof
      unfold J2.ndof; rw [if_pos h]; omega)
  · have e : ¬ (P.lift pE pP).thermal = true := h
    simp only [h, e]
    exact Tracks.zero

include hd in
theorem devForm_tracks {mF : Fad} {m : E → ℝ} (hm : Tracks L N x mF m) {EF : ℕ → Fad} {e : E → ℕ → ℝ}
    (he : ∀ t, t < stressTerms P.d → Tracks L N x (EF t) fun y => e y t) {t : ℕ} (ht : t < stressTerms P.d) :
    Tracks L N x (devForm P.d mF EF t) fun y => devForm P.d (m y) (e y) t := by
  have h3 : Tracks L N x (third P.d EF) fun y => third P.d (e y) := by
    unfold third
    rcases hd with h | h <;> rw [h] at he ⊢ <;>
      simp only [stressTerms, reduceIte, Nat.reduceEqDiff] at he ⊢
    · exact (((he 0 (by omega)).add (he 1 (by omega))).add (he 3 (by omega))).div three_tracks (by norm_num)
    · exact (((he 0 (by omega)).add (he 1 (by omega))).add (he 2 (by omega))).div three_tracks (by norm_num)
  unfold devForm
  exact Tracks.ite ((two_tracks.mul hm).mul ((he t ht).sub h3)) (hm.mul (he t ht))

include hd hU hC hZ hX

theorem eta_tracks (hdet : detForm P.d (X x) ≠ 0) (hE : PenOk pE P.penE (meanDensity (P.d + 1) (Z x)))
    {t : ℕ} (ht : t < stressTerms P.d) :
    Tracks L N x ((P.lift pE pP).eta UF CF ZF XF t) fun y => P.eta (U y) (C y) (Z y) (X y) t := by
  have hle := stressTerms_eq hd
  unfold J2.eta etaForm
  refine Tracks.sub ?_ (hC _ (by rw [show (P.lift pE pP).d = P.d from rfl]; omega))
  refine devForm_tracks hd ?_ (fun s hs => ?_) ht
  · exact (PenOk.tracks (meanDensity_tracks (Nat.succ_ne_zero _) hZ) hE).mul (Tracks.const _)
  · unfold J2.elasticOf
    refine ((total_tracks hd hU hX hdet s).sub (hC _ (by omega))).sub ?_
    exact Tracks.ite (therm_tracks hU) Tracks.zero

theorem norm_tracks (hdet : detForm P.d (X x) ≠ 0) (hE : PenOk pE P.penE (meanDensity (P.d + 1) (Z x)))
    (hη : sqForm P.d (P.eta (U x) (C x) (Z x) (X x)) ≠ 0) :
    Tracks L N x ((P.lift pE pP).norm Fad.sqrt UF CF ZF XF) fun y => P.norm Real.sqrt (U y) (C y) (Z y) (X y) := by
  unfold J2.norm
  refine sqrt_tracks (Tracks.sum _ fun t ht => ?_) hη
  have h := eta_tracks (pP := pP) hd hU hC hZ hX hdet hE (mem_range.1 ht)
  exact Tracks.ite (h.mul h) (two_tracks.mul (h.mul h))

omit hd hU hC hZ hX in
theorem sqForm_nonneg {d : ℕ} (S : ℕ → ℝ) : 0 ≤ sqForm d S :=
  sum_nonneg fun t _ => by
    have := mul_self_nonneg (S t)
    split <;> linarith

theorem dir_tracks (hdet : detForm P.d (X x) ≠ 0) (hE : PenOk pE P.penE (meanDensity (P.d + 1) (Z x)))
    (hη : sqForm P.d (P.eta (U x) (C x) (Z x) (X x)) ≠ 0) {t : ℕ} (ht : t < stressTerms P.d) :
    Tracks L N x ((P.lift pE pP).dir Fad.sqrt UF CF ZF XF t) fun y =>
      P.dir Real.sqrt (U y) (C y) (Z y) (X y) t := by
  unfold J2.dir
  refine (eta_tracks hd hU hC hZ hX hdet hE ht).div (norm_tracks hd hU hC hZ hX hdet hE hη) ?_
  unfold J2.norm
  rw [Real.sqrt_ne_zero (sqForm_nonneg _)]
  exact hη

include hCp

/-- The residual of a cell in the plastic branch. -/
theorem evalForm_plastic_tracks {D : CellData ℝ} (hD : D = ⟨U x, D.up, C x, Cp x, Z x, X x⟩)
    (hS : Smooth P pE pP D) {i : ℕ} (hi : i < localDofs P.d) :
    Tracks L N x ((P.lift pE pP).evalForm Fad.sqrt true UF CF CpF ZF XF i) fun y =>
      P.evalForm Real.sqrt true (U y) (C y) (Cp y) (Z y) (X y) i := by
  have hle := stressTerms_eq hd
  rw [hD] at hS
  obtain ⟨h1, h2, h3, h4⟩ := hS
  have hp := PenOk.tracks (meanDensity_tracks (Nat.succ_ne_zero _) hZ) h3
  have hdir := fun t => dir_tracks (pP := pP) (t := t) hd hU hC hZ hX h1 h2 h4
  unfold J2.evalForm
  simp only [if_true]
  by_cases i0 : i = 0
  · simp only [i0, if_true]
    exact ((hC 0 (by omega)).sub (hCp 0 (by omega))).sub (hC 1 (by omega))
  by_cases i1 : i = 1
  · simp only [i1, if_true, if_false, Nat.one_ne_zero]
    exact ((Tracks.const _).mul (norm_tracks hd hU hC hZ hX h1 h2 h4)).sub
      ((hp.mul (Tracks.const _)).add ((hp.mul (Tracks.const _)).mul (hC 0 (by omega))))
  simp only [i0, i1, if_false]
  by_cases i2 : i < 2 + stressTerms P.d
  · have i2' : i < 2 + stressTerms (P.lift pE pP).d := i2
    simp only [i2, i2', if_true]
    refine ((hC i hi).sub (hCp i hi)).sub (Tracks.ite ?_ ?_)
    · exact ((Tracks.const _).mul (hC 1 (by omega))).mul (hdir _ (by omega))
    · exact ((two_tracks.mul (Tracks.const _)).mul (hC 1 (by omega))).mul (hdir _ (by omega))
  · have i2' : ¬ i < 2 + stressTerms (P.lift pE pP).d := i2
    simp only [i2, i2', if_false]
    refine ((hC i hi).sub (hCp i hi)).sub ?_
    exact (((Tracks.const _).mul (hC 1 (by omega))).mul (hp.mul (Tracks.const _))).mul
      (hdir (i - 2 - stressTerms P.d) (by omega))

omit hU hZ hX in
/-- The residual of a cell in the elastic branch. -/
theorem evalForm_elastic_tracks {i : ℕ} (hi : i < localDofs P.d) :
    Tracks L N x ((P.lift pE pP).evalForm Fad.sqrt false UF CF CpF ZF XF i) fun y =>
      P.evalForm Real.sqrt false (U y) (C y) (Cp y) (Z y) (X y) i := by
  have hle := stressTerms_eq hd
  unfold J2.evalForm
  simp only [Bool.false_eq_true, if_false]
  exact Tracks.ite (hC 1 (by omega)) ((hC i hi).sub (hCp i hi))

end Tracks

/-! ## Cells -/

section CellLevel
variable {E : Type} [NormedAddCommGroup E] [NormedSpace ℝ E]

/-- The numbers of a cell with derivatives follow the numbers of that cell. -/
structure Follows (M : FeModel) (nl : ℕ) (L : ℕ → E →L[ℝ] ℝ) (N : ℕ) (x : E) (DF : CellData Fad)
    (D : E → CellData ℝ) : Prop where
  u : ∀ l, l < M.npc * M.ndof → Tracks L N x (DF.u l) fun y => (D y).u l
  c : ∀ i, i < nl → Tracks L N x (DF.c i) fun y => (D y).c i
  cp : ∀ i, i < nl → Tracks L N x (DF.cp i) fun y => (D y).cp i
  z : ∀ a, a < M.npc → Tracks L N x (DF.z a) fun y => (D y).z a
  x : ∀ a k, a < M.npc → k < M.dim → Tracks L N x (DF.x a k) fun y => (D y).x a k

/-- The residual of a cell, with the branch chosen by the multiplier. -/
noncomputable def rowOf (P : J2 ℝ) (D : CellData ℝ) (i : ℕ) : ℝ :=
  P.evalForm Real.sqrt (decide (0 < D.c 1)) D.u D.c D.cp D.z D.x i

/-- The same with derivatives. -/
noncomputable def rowOfF (P : J2 Fad) (D : CellData Fad) (i : ℕ) : Fad :=
  P.evalForm Fad.sqrt (Fad.pos (D.c 1)) D.u D.c D.cp D.z D.x i

theorem rowOf_tracks {M : FeModel} {P : J2 ℝ} {pE pP : Fad → Fad} (hd : M.dim = 2 ∨ M.dim = 3)
    (e : P.d = M.dim) (en : P.ndof = M.ndof) {L : ℕ → E →L[ℝ] ℝ} {N : ℕ} {x : E} {DF : CellData Fad}
    {D : E → CellData ℝ} (h : Follows M (localDofs M.dim) L N x DF D)
    (hS : 0 < (D x).c 1 → Smooth P pE pP (D x))
    (hb : (D x).c 1 ≠ 0 ∨ ∀ y, (D y).c 1 = (D x).c 1) {i : ℕ} (hi : i < localDofs M.dim) :
    Tracks L N x (rowOfF (P.lift pE pP) DF i) fun y => rowOf P (D y) i := by
  have hd' : P.d = 2 ∨ P.d = 3 := by rw [e]; exact hd
  have hle := stressTerms_eq hd
  have h1 := h.c 1 (by omega)
  have hU : ∀ l, l < (P.d + 1) * P.ndof → Tracks L N x (DF.u l) fun y => (D y).u l := fun l hl => h.u l (by
    rw [e, en] at hl; exact hl)
  have hC : ∀ i, i < localDofs P.d → Tracks L N x (DF.c i) fun y => (D y).c i := fun i hi => h.c i (by rwa [← e])
  have hCp : ∀ i, i < localDofs P.d → Tracks L N x (DF.cp i) fun y => (D y).cp i := fun i hi => h.cp i (by rwa [← e])
  have hZ : ∀ a, a < P.d + 1 → Tracks L N x (DF.z a) fun y => (D y).z a := fun a ha => h.z a (by rw [e] at ha; exact ha)
  have hX : ∀ a k, a < P.d + 1 → k < P.d → Tracks L N x (DF.x a k) fun y => (D y).x a k :=
    fun a k ha hk => h.x a k (by rw [e] at ha; exact ha) (by rwa [← e])
  have hi' : i < localDofs P.d := by rwa [e]
  have hF : Tracks L N x (P.lift pE pP |>.evalForm Fad.sqrt (decide (0 < (D x).c 1)) DF.u DF.c DF.cp DF.z DF.x i)
      fun y => P.evalForm Real.sqrt (decide (0 < (D x).c 1)) (D y).u (D y).c (D y).cp (D y).z (D y).x i := by
    by_cases hp : 0 < (D x).c 1
    · simp only [hp, decide_true]
      exact evalForm_plastic_tracks (U := fun y => (D y).u) (C := fun y => (D y).c) (Cp := fun y => (D y).cp)
        (Z := fun y => (D y).z) (X := fun y => (D y).x) hd' hU hC hCp hZ hX (D := D x) rfl (hS hp) hi'
    · simp only [hp, decide_false]
      exact evalForm_elastic_tracks (U := fun y => (D y).u) (C := fun y => (D y).c) (Cp := fun y => (D y).cp)
        (Z := fun y => (D y).z) (X := fun y => (D y).x) hd' hC hCp hi'
  have hev : ∀ᶠ y in nhds x, decide (0 < (D y).c 1) = decide (0 < (D x).c 1) := by
    rcases hb with hb | hb
    · have hcont : ContinuousAt (fun y => (D y).c 1) x := h1.deriv.continuousAt
      rcases lt_or_gt_of_ne hb with hn | hp
      · filter_upwards [hcont.eventually_lt continuousAt_const hn] with y hy
        rw [decide_eq_decide]
        exact ⟨fun h => absurd hy (not_lt.2 h.le), fun h => absurd hn (not_lt.2 h.le)⟩
      · filter_upwards [continuousAt_const.eventually_lt hcont hp] with y hy
        rw [decide_eq_decide]
        exact ⟨fun _ => hp, fun _ => hy⟩
    · exact Filter.Eventually.of_forall fun y => by rw [hb y]
  have e1 : rowOfF (P.lift pE pP) DF i =
      (P.lift pE pP).evalForm Fad.sqrt (decide (0 < (D x).c 1)) DF.u DF.c DF.cp DF.z DF.x i := by
    unfold rowOfF Fad.pos
    rw [h1.val]
  rw [e1]
  refine ⟨hF.val, hF.deriv.congr_of_eventuallyEq ?_⟩
  filter_upwards [hev] with y hy
  unfold rowOf
  rw [hy]

end CellLevel

/-! ## Meshes -/

/-- The evaluators of the derivatives. -/
noncomputable def residualF (M : FeModel) (P : Nat → J2 ℝ) (pE pP : Nat → Fad → Fad) (ord : Nat → List Nat) :
    LocalEv Fad :=
  residualEv M (fun k => (P k).lift (pE k) (pP k)) Fad.fabs Fad.sqrt Fad.pos ord

section Mesh
variable {M : FeModel} (hM : M.Ok) (hB : Blocks M) {P : Nat → J2 ℝ} (hJ : JOk M P) {pE pP : Nat → Fad → Fad}
  {A : Args ℝ} (hA : A.Ok M (localDofs M.dim))
include hM hB hJ

theorem residualF_rowWise {ord : Nat → List Nat} (ho : OrdOk M ord) : RowWise M (localDofs M.dim)
    (residualF M P pE pP ord) fun k D i => rowOfF ((P k).lift (pE k) (pP k)) D i :=
  residualEv_rowWise (P := fun k => (P k).lift (pE k) (pP k)) ⟨hJ.dim, hJ.d, hJ.ndof, fun k hk => by
    show ((P k).basis.map Fad.const).length = _
    rw [List.length_map]
    exact hJ.basis k hk⟩ ho _ _ _

/-- The residuals for arguments that depend on `y`, and their derivatives. -/
theorem residual_deriv {E : Type} [NormedAddCommGroup E] [NormedSpace ℝ E] {x : E} {a : E → Args ℝ}
    (hA : ∀ y, (a y).Ok M (localDofs M.dim)) {mk : Makers ℝ Fad} {cols : Nat}
    {L : Nat → Nat → E →L[ℝ] ℝ}
    (hF : ∀ cell, Follows M (localDofs M.dim) (L cell) cols x (cellData M (localDofs M.dim) mk (a x) cell)
      fun y => numbers M (a y) cell)
    {ordR : E → Nat → List Nat} (hoR : ∀ y, OrdOk M (ordR y)) {schR : E → Nat → Nat → List Nat}
    (hsR : ∀ y, LSched M (schR y)) :
    ∃ r : E → V2 ℝ, (∀ y, j2Residual M P (ordR y) (schR y) (a y) = .ok (r y)) ∧
      EachCell M fun k cell =>
        (0 < (numbers M (a x) cell).c 1 → Smooth (P k) (pE k) (pP k) (numbers M (a x) cell)) →
        ((numbers M (a x) cell).c 1 ≠ 0 ∨ ∀ y, (numbers M (a y) cell).c 1 = (numbers M (a x) cell).c 1) →
        ∀ i, i < localDofs M.dim → HasFDerivAt (fun y => (r y).e cell i)
          (∑ l ∈ range cols, (rowOfF ((P k).lift (pE k) (pP k)) (cellData M (localDofs M.dim) mk (a x) cell) i).dx l •
            L cell l) x := by
  have hR := fun y => (C64_residual hM hB localDofs_pos (hsR y)
    (residualEv_rowWise hJ (hoR y) (fun a : ℝ => |a|) Real.sqrt fun f => decide (0 < f)) (hA y))
  choose r hr1 hr2 using hR
  refine ⟨r, hr1, fun k hk cell hcell hS hb i hi => ?_⟩
  have ht := rowOf_tracks (pE := pE k) (pP := pP k) hJ.dim (hJ.d k hk) (hJ.ndof k hk) (hF cell) hS hb hi
  have e : (fun y => (r y).e cell i) = fun y => rowOf (P k) (numbers M (a y) cell) i := by
    funext y
    exact (hr2 y).2.1 k hk cell hcell i hi
  rw [e]
  exact ht.deriv

/-- Residuals and derivatives of a mesh whose arguments depend on `y`. -/
theorem local_gradient {E : Type} [NormedAddCommGroup E] [NormedSpace ℝ E] {x : E} {a : E → Args ℝ}
    (hA : ∀ y, (a y).Ok M (localDofs M.dim)) {mk : Makers ℝ Fad} {cols : Nat} (hcol : cols ≠ 0)
    {L : Nat → Nat → E →L[ℝ] ℝ}
    (hF : ∀ cell, Follows M (localDofs M.dim) (L cell) cols x (cellData M (localDofs M.dim) mk (a x) cell)
      fun y => numbers M (a y) cell)
    {ord : Nat → List Nat} (ho : OrdOk M ord) {sch : Nat → Nat → List Nat} (hs : LSched M sch)
    {ordR : E → Nat → List Nat} (hoR : ∀ y, OrdOk M (ordR y)) {schR : E → Nat → Nat → List Nat}
    (hsR : ∀ y, LSched M (schR y)) :
    ∃ (r : E → V2 ℝ) (J : V3 ℝ), (∀ y, j2Residual M P (ordR y) (schR y) (a y) = .ok (r y)) ∧
      localGradient M (localDofs M.dim) cols mk (residualF M P pE pP ord) sch (a x) = .ok J ∧
      EachCell M fun k cell =>
        (0 < (numbers M (a x) cell).c 1 → Smooth (P k) (pE k) (pP k) (numbers M (a x) cell)) →
        ((numbers M (a x) cell).c 1 ≠ 0 ∨ ∀ y, (numbers M (a y) cell).c 1 = (numbers M (a x) cell).c 1) →
        ∀ i, i < localDofs M.dim →
          HasFDerivAt (fun y => (r y).e cell i) (∑ l ∈ range cols, J.e cell i l • L cell l) x := by
  obtain ⟨r, hr1, hr2⟩ := residual_deriv (pE := pE) (pP := pP) hM hB hJ hA hF hoR hsR
  obtain ⟨J, hJ1, hJ2⟩ := (C64_gradient hM hB localDofs_pos hs hcol (mk := mk)
    (residualF_rowWise (pE := pE) (pP := pP) hM hB hJ ho) (hA x))
  refine ⟨r, J, hr1, hJ1, fun k hk cell hcell hS hb i hi => ?_⟩
  refine (hr2 k hk cell hcell hS hb i hi).congr_fderiv (sum_congr rfl fun l hl => ?_)
  rw [hJ2.2.1 k hk cell hcell i l hi (mem_range.1 hl)]

end Mesh

/-! ## The six derivatives -/

section Six
variable {M : FeModel} (hM : M.Ok) (hB : Blocks M) {P : Nat → J2 ℝ} (hJ : JOk M P) {pE pP : Nat → Fad → Fad}
  {A : Args ℝ} (hA : A.Ok M (localDofs M.dim)) {ord : Nat → List Nat} (ho : OrdOk M ord)
  {sch : Nat → Nat → List Nat} (hs : LSched M sch)
include hM hB hJ hA ho hs

/-- **C65**, derivative by the global state: row `i` of the matrix of a cell holds the derivatives of residual
`i` of that cell by the unknowns of its nodes. -/
theorem C65_gradient_u {u : Fin (M.nn * M.ndof) → ℝ} (h0 : M.ndof ≠ 0)
    {ordR : (Fin (M.nn * M.ndof) → ℝ) → Nat → List Nat} (hoR : ∀ y, OrdOk M (ordR y))
    {schR : (Fin (M.nn * M.ndof) → ℝ) → Nat → Nat → List Nat} (hsR : ∀ y, LSched M (schR y)) :
    ∃ (r : (Fin (M.nn * M.ndof) → ℝ) → V2 ℝ) (J : V3 ℝ),
      (∀ y, j2Residual M P (ordR y) (schR y) { A with u := List.ofFn y } = .ok (r y)) ∧
      localGradient M (localDofs M.dim) (M.npc * M.ndof) ⟨seedOf, constOf, constOf, constOf, constOf, constOf⟩
        (residualF M P pE pP ord) sch { A with u := List.ofFn u } = .ok J ∧
      EachCell M fun k cell =>
        (0 < at0 A.c (cell * localDofs M.dim + 1) →
          Smooth (P k) (pE k) (pP k) (numbers M { A with u := List.ofFn u } cell)) →
        ∀ i, i < localDofs M.dim → HasFDerivAt (fun y => (r y).e cell i) (∑ l ∈ range (M.npc * M.ndof),
          J.e cell i l • coord (M.nn * M.ndof) (cellDof M.npc M.ndof M.c2n cell l)) u := by
  obtain ⟨r, J, h1, h2, h3⟩ := local_gradient (pE := pE) (pP := pP) (x := u)
    (a := fun y => { A with u := List.ofFn y }) (cols := M.npc * M.ndof)
    (L := fun cell l => coord (M.nn * M.ndof) (cellDof M.npc M.ndof M.c2n cell l))
    (mk := ⟨seedOf, constOf, constOf, constOf, constOf, constOf⟩) hM hB hJ
    (fun y => ⟨List.length_ofFn, hA.up, hA.c, hA.cp, hA.z, hA.x⟩) (Nat.mul_ne_zero (Nat.succ_ne_zero _) h0)
    (fun cell => ⟨fun l hl => by
        simp only [cellData, numbers, plainMk, plainOf, seedOf, at0_ofFn]
        exact Tracks.seed (L := fun l => coord _ (cellDof M.npc M.ndof M.c2n cell l)) hl,
      fun _ _ => Tracks.const _, fun _ _ => Tracks.const _, fun _ _ => Tracks.const _, fun _ _ _ _ => Tracks.const _⟩)
    ho hs hoR hsR
  exact ⟨r, J, h1, h2, fun k hk cell hcell hS => h3 k hk cell hcell hS (.inr fun _ => rfl)⟩

/-- **C65**, derivative by the previous global state. -/
theorem C65_gradient_up {u : Fin (M.nn * M.ndof) → ℝ} (h0 : M.ndof ≠ 0)
    {ordR : (Fin (M.nn * M.ndof) → ℝ) → Nat → List Nat} (hoR : ∀ y, OrdOk M (ordR y))
    {schR : (Fin (M.nn * M.ndof) → ℝ) → Nat → Nat → List Nat} (hsR : ∀ y, LSched M (schR y)) :
    ∃ (r : (Fin (M.nn * M.ndof) → ℝ) → V2 ℝ) (J : V3 ℝ),
      (∀ y, j2Residual M P (ordR y) (schR y) { A with up := List.ofFn y } = .ok (r y)) ∧
      localGradient M (localDofs M.dim) (M.npc * M.ndof) ⟨constOf, seedOf, constOf, constOf, constOf, constOf⟩
        (residualF M P pE pP ord) sch { A with up := List.ofFn u } = .ok J ∧
      EachCell M fun k cell =>
        (0 < at0 A.c (cell * localDofs M.dim + 1) →
          Smooth (P k) (pE k) (pP k) (numbers M { A with up := List.ofFn u } cell)) →
        ∀ i, i < localDofs M.dim → HasFDerivAt (fun y => (r y).e cell i) (∑ l ∈ range (M.npc * M.ndof),
          J.e cell i l • coord (M.nn * M.ndof) (cellDof M.npc M.ndof M.c2n cell l)) u := by
  obtain ⟨r, J, h1, h2, h3⟩ := local_gradient (pE := pE) (pP := pP) (x := u)
    (a := fun y => { A with up := List.ofFn y }) (cols := M.npc * M.ndof)
    (L := fun cell l => coord (M.nn * M.ndof) (cellDof M.npc M.ndof M.c2n cell l))
    (mk := ⟨constOf, seedOf, constOf, constOf, constOf, constOf⟩) hM hB hJ
    (fun y => ⟨hA.u, List.length_ofFn, hA.c, hA.cp, hA.z, hA.x⟩) (Nat.mul_ne_zero (Nat.succ_ne_zero _) h0)
    (fun cell => ⟨fun _ _ => Tracks.const _,
      fun _ _ => Tracks.const _, fun _ _ => Tracks.const _, fun _ _ => Tracks.const _, fun _ _ _ _ => Tracks.const _⟩)
    ho hs hoR hsR
  exact ⟨r, J, h1, h2, fun k hk cell hcell hS => h3 k hk cell hcell hS (.inr fun _ => rfl)⟩

/-- **C65**, derivative by the previous local state. -/
theorem C65_gradient_cp {c : Fin (M.nc * localDofs M.dim) → ℝ}
    {ordR : (Fin (M.nc * localDofs M.dim) → ℝ) → Nat → List Nat} (hoR : ∀ y, OrdOk M (ordR y))
    {schR : (Fin (M.nc * localDofs M.dim) → ℝ) → Nat → Nat → List Nat} (hsR : ∀ y, LSched M (schR y)) :
    ∃ (r : (Fin (M.nc * localDofs M.dim) → ℝ) → V2 ℝ) (J : V3 ℝ),
      (∀ y, j2Residual M P (ordR y) (schR y) { A with cp := List.ofFn y } = .ok (r y)) ∧
      localGradient M (localDofs M.dim) (localDofs M.dim) ⟨constOf, constOf, constOf, seedOf, constOf, constOf⟩
        (residualF M P pE pP ord) sch { A with cp := List.ofFn c } = .ok J ∧
      EachCell M fun k cell =>
        (0 < at0 A.c (cell * localDofs M.dim + 1) →
          Smooth (P k) (pE k) (pP k) (numbers M { A with cp := List.ofFn c } cell)) →
        ∀ i, i < localDofs M.dim → HasFDerivAt (fun y => (r y).e cell i) (∑ l ∈ range (localDofs M.dim),
          J.e cell i l • coord (M.nc * localDofs M.dim) (cell * localDofs M.dim + l)) c := by
  obtain ⟨r, J, h1, h2, h3⟩ := local_gradient (pE := pE) (pP := pP) (x := c)
    (a := fun y => { A with cp := List.ofFn y }) (cols := localDofs M.dim)
    (L := fun cell l => coord (M.nc * localDofs M.dim) (cell * localDofs M.dim + l))
    (mk := ⟨constOf, constOf, constOf, seedOf, constOf, constOf⟩) hM hB hJ
    (fun y => ⟨hA.u, hA.up, hA.c, List.length_ofFn, hA.z, hA.x⟩) localDofs_pos
    (fun cell => ⟨fun _ _ => Tracks.const _, fun _ _ => Tracks.const _, fun l hl => by
        simp only [cellData, numbers, plainMk, plainOf, seedOf, at0_ofFn]
        exact Tracks.seed (L := fun l => coord _ (cell * localDofs M.dim + l)) hl,
      fun _ _ => Tracks.const _, fun _ _ _ _ => Tracks.const _⟩)
    ho hs hoR hsR
  exact ⟨r, J, h1, h2, fun k hk cell hcell hS => h3 k hk cell hcell hS (.inr fun _ => rfl)⟩

/-- **C65**, derivative by the local state, in every cell whose multiplier is not zero. -/
theorem C65_gradient_c_partial {c : Fin (M.nc * localDofs M.dim) → ℝ}
    {ordR : (Fin (M.nc * localDofs M.dim) → ℝ) → Nat → List Nat} (hoR : ∀ y, OrdOk M (ordR y))
    {schR : (Fin (M.nc * localDofs M.dim) → ℝ) → Nat → Nat → List Nat} (hsR : ∀ y, LSched M (schR y)) :
    ∃ (r : (Fin (M.nc * localDofs M.dim) → ℝ) → V2 ℝ) (J : V3 ℝ),
      (∀ y, j2Residual M P (ordR y) (schR y) { A with c := List.ofFn y } = .ok (r y)) ∧
      localGradient M (localDofs M.dim) (localDofs M.dim) ⟨constOf, constOf, seedOf, constOf, constOf, constOf⟩
        (residualF M P pE pP ord) sch { A with c := List.ofFn c } = .ok J ∧
      EachCell M fun k cell => coord (M.nc * localDofs M.dim) (cell * localDofs M.dim + 1) c ≠ 0 →
        (0 < coord (M.nc * localDofs M.dim) (cell * localDofs M.dim + 1) c →
          Smooth (P k) (pE k) (pP k) (numbers M { A with c := List.ofFn c } cell)) →
        ∀ i, i < localDofs M.dim → HasFDerivAt (fun y => (r y).e cell i) (∑ l ∈ range (localDofs M.dim),
          J.e cell i l • coord (M.nc * localDofs M.dim) (cell * localDofs M.dim + l)) c := by
  obtain ⟨r, J, h1, h2, h3⟩ := local_gradient (pE := pE) (pP := pP) (x := c)
    (a := fun y => { A with c := List.ofFn y }) (cols := localDofs M.dim)
    (L := fun cell l => coord (M.nc * localDofs M.dim) (cell * localDofs M.dim + l))
    (mk := ⟨constOf, constOf, seedOf, constOf, constOf, constOf⟩) hM hB hJ
    (fun y => ⟨hA.u, hA.up, List.length_ofFn, hA.cp, hA.z, hA.x⟩) localDofs_pos
    (fun cell => ⟨fun _ _ => Tracks.const _, fun l hl => by
        simp only [cellData, numbers, plainMk, plainOf, seedOf, at0_ofFn]
        exact Tracks.seed (L := fun l => coord _ (cell * localDofs M.dim + l)) hl, fun _ _ => Tracks.const _,
      fun _ _ => Tracks.const _, fun _ _ _ _ => Tracks.const _⟩)
    ho hs hoR hsR
  have e : ∀ cell, (numbers M { A with c := List.ofFn c } cell).c 1 =
      coord (M.nc * localDofs M.dim) (cell * localDofs M.dim + 1) c := fun cell => at0_ofFn c _
  refine ⟨r, J, h1, h2, fun k hk cell hcell hne hS => h3 k hk cell hcell ?_ (.inl ?_)⟩
  · intro hp
    rw [show (numbers M ((fun y => { A with c := List.ofFn y }) c) cell).c 1 = _ from e cell] at hp
    exact hS hp
  · rw [show (numbers M ((fun y => { A with c := List.ofFn y }) c) cell).c 1 = _ from e cell]
    exact hne

/-- **C65**, derivative by the local state, in every cell whose multiplier is not positive: the matrix is the
identity, but for the column and row of the multiplier it is the derivative of the residual of an elastic
step. -/
theorem C65_gradient_c_elastic :
    (localGradient M (localDofs M.dim) (localDofs M.dim) ⟨constOf, constOf, seedOf, constOf, constOf, constOf⟩
        (residualF M P pE pP ord) sch A).Sat fun J =>
      EachCell M fun _ cell => at0 A.c (cell * localDofs M.dim + 1) ≤ 0 →
        ∀ i j, i < localDofs M.dim → j < localDofs M.dim → J.e cell i j = if i = j then 1 else 0 := by
  refine (C64_gradient hM hB localDofs_pos hs localDofs_pos (residualF_rowWise (pE := pE) (pP := pP) hM hB hJ ho)
    hA).mono ?_
  rintro J ⟨-, h, -⟩ k hk cell hcell hle i j hi hj
  rw [h k hk cell hcell i j hi hj]
  unfold rowOfF Fad.pos J2.evalForm
  rw [show decide (0 < Fad.val ((cellData M (localDofs M.dim) ⟨constOf, constOf, seedOf, constOf, constOf, constOf⟩ A
    cell).c 1)) = false from decide_eq_false (not_lt.2 hle)]
  simp only [Bool.false_eq_true, if_false]
  by_cases i1 : i = 1
  · subst i1
    simp only [if_true, cellData, seedOf, Fad.seed, Fad.dx_mk, Pi.single_apply]
    simp only [eq_comm]
  · simp only [i1, if_false, cellData, seedOf, constOf, Fad.dx_sub, Fad.seed, Fad.const, Fad.dx_mk, Pi.single_apply]
    rw [show (0 : ℕ → ℝ) j = 0 from rfl, sub_zero]
    simp only [eq_comm]

omit ho hs in
/-- **C65, refutation for the local state**: in a cell whose multiplier is zero - every cell after an elastic
step - and whose yield function is not zero, the second residual has no derivative by the local state. -/
theorem C65_gradient_c_false {c : Fin (M.nc * localDofs M.dim) → ℝ}
    {ordR : (Fin (M.nc * localDofs M.dim) → ℝ) → Nat → List Nat} (hoR : ∀ y, OrdOk M (ordR y))
    {schR : (Fin (M.nc * localDofs M.dim) → ℝ) → Nat → Nat → List Nat} (hsR : ∀ y, LSched M (schR y)) :
    ∃ r : (Fin (M.nc * localDofs M.dim) → ℝ) → V2 ℝ,
      (∀ y, j2Residual M P (ordR y) (schR y) { A with c := List.ofFn y } = .ok (r y)) ∧
      EachCell M fun k cell => coord (M.nc * localDofs M.dim) (cell * localDofs M.dim + 1) c = 0 →
        (P k).trial Real.sqrt (numbers M { A with c := List.ofFn c } cell).u
          (numbers M { A with c := List.ofFn c } cell).c (numbers M { A with c := List.ofFn c } cell).z
          (numbers M { A with c := List.ofFn c } cell).x ≠ 0 →
        ¬ DifferentiableAt ℝ (fun y => (r y).e cell 1) c := by
  have hR := fun y : Fin (M.nc * localDofs M.dim) → ℝ => (C64_residual hM hB localDofs_pos (hsR y)
    (residualEv_rowWise hJ (hoR y) (fun a : ℝ => |a|) Real.sqrt fun f => decide (0 < f))
    (A := { A with c := List.ofFn y }) ⟨hA.u, hA.up, List.length_ofFn, hA.cp, hA.z, hA.x⟩)
  choose r hr1 hr2 using hR
  refine ⟨r, hr1, fun k hk cell hcell h0 ht => ?_⟩
  intro hl
  have hd : (P k).d = 2 ∨ (P k).d = 3 := by rw [hJ.d k hk]; exact hJ.dim
  have hle := stressTerms_eq hJ.dim
  have hlt : cell * localDofs M.dim + 1 < M.nc * localDofs M.dim :=
    local_lt (dom_lt hM hk hcell) (by omega)
  set q : Fin (M.nc * localDofs M.dim) := ⟨cell * localDofs M.dim + 1, hlt⟩ with hq
  have hr : ∀ y, (r y).e cell 1 = rowOf (P k) (numbers M { A with c := List.ofFn y } cell) 1 := fun y =>
    (hr2 y).2.1 k hk cell hcell 1 (by omega)
  -- along the multiplier
  have hcont : ContinuousAt (fun t : ℝ => (r (Function.update c q t)).e cell 1) 0 := by
    have h1 : ContinuousAt (fun t : ℝ => Function.update c q t) 0 := by fun_prop
    have hc0 : Function.update c q (0 : ℝ) = c := by
      have : c q = 0 := by
        have h := h0
        unfold coord at h
        rw [dif_pos hlt] at h
        exact h
      rw [← this, Function.update_eq_self]
    have h2 : ContinuousAt (fun y => (r y).e cell 1) (Function.update c q (0 : ℝ)) := by
      rw [hc0]; exact hl.continuousAt
    exact ContinuousAt.comp (g := fun y => (r y).e cell 1) h2 h1
  have hval : ∀ t : ℝ, (r (Function.update c q t)).e cell 1 = if 0 < t then
      (P k).trial Real.sqrt (numbers M { A with c := List.ofFn c } cell).u
          (numbers M { A with c := List.ofFn c } cell).c (numbers M { A with c := List.ofFn c } cell).z
          (numbers M { A with c := List.ofFn c } cell).x else t := by
    intro t
    have hC : ∀ i, i < localDofs M.dim → (numbers M { A with c := List.ofFn (Function.update c q t) } cell).c i =
        if i = 1 then t else (numbers M { A with c := List.ofFn c } cell).c i := by
      intro i hi
      have hli : cell * localDofs M.dim + i < M.nc * localDofs M.dim := local_lt (dom_lt hM hk hcell) hi
      show at0 (List.ofFn _) _ = if i = 1 then t else at0 (List.ofFn _) _
      rw [at0_ofFn, at0_ofFn]
      unfold coord
      rw [dif_pos hli]
      show Function.update c q t ⟨_, hli⟩ = _
      rw [Function.update_apply]
      by_cases i1 : i = 1
      · subst i1; simp [hq]
      · rw [if_neg (by rw [hq, Fin.mk.injEq]; omega), if_neg i1]; rfl
    have h1 := hC 1 (by omega)
    rw [if_pos rfl] at h1
    rw [hr]
    unfold rowOf J2.evalForm
    rw [h1]
    by_cases hp : 0 < t
    · simp only [hp, decide_true, if_true, if_false, Nat.one_ne_zero]
      rw [hC 0 (by omega), if_neg (by omega)]
      unfold J2.trial
      congr 2
      refine norm_congr _ hd fun i h2 hi => ?_
      rw [hC i (by rw [← hJ.d k hk]; exact hi), if_neg (by omega)]
    · simp only [hp, decide_false, if_false, if_true, Bool.false_eq_true]
  simp only [hval] at hcont
  have hlim : Filter.Tendsto (fun t : ℝ => if 0 < t then (P k).trial Real.sqrt
      (numbers M { A with c := List.ofFn c } cell).u (numbers M { A with c := List.ofFn c } cell).c
      (numbers M { A with c := List.ofFn c } cell).z (numbers M { A with c := List.ofFn c } cell).x else t)
      (nhdsWithin 0 (Set.Ioi 0)) (nhds 0) := by
    have := hcont.tendsto.mono_left (nhdsWithin_le_nhds (s := Set.Ioi (0 : ℝ)))
    simpa using this
  have hconst := hlim.congr' (show _ =ᶠ[nhdsWithin (0 : ℝ) (Set.Ioi 0)] fun _ => (P k).trial Real.sqrt
      (numbers M { A with c := List.ofFn c } cell).u (numbers M { A with c := List.ofFn c } cell).c
      (numbers M { A with c := List.ofFn c } cell).z (numbers M { A with c := List.ofFn c } cell).x by
    filter_upwards [self_mem_nhdsWithin] with t ht
    exact if_pos ht)
  exact ht (tendsto_nhds_unique tendsto_const_nhds hconst)

end Six

section One
variable {M : FeModel} (hM : M.Ok) (h0 : M.nc ≠ 0) (h1 : M.domains = [List.range M.nc]) {P : Nat → J2 ℝ}
  (hJ : JOk M P) {pE pP : Nat → Fad → Fad}
  {A : Args ℝ} (hA : A.Ok M (localDofs M.dim)) {ord : Nat → List Nat} (ho : OrdOk M ord)
  {sch : Nat → Nat → List Nat} (hs : LSched M sch)
include hM h0 h1 hJ hA ho hs

/-- **C65**, derivative by the control, for one domain with all cells. -/
theorem C65_gradient_z_one {z : Fin M.nn → ℝ}
    {ordR : (Fin M.nn → ℝ) → Nat → List Nat} (hoR : ∀ y, OrdOk M (ordR y))
    {schR : (Fin M.nn → ℝ) → Nat → Nat → List Nat} (hsR : ∀ y, LSched M (schR y)) :
    ∃ (r : (Fin M.nn → ℝ) → V2 ℝ) (J : V3 ℝ),
      (∀ y, j2Residual M P (ordR y) (schR y) { A with z := List.ofFn y } = .ok (r y)) ∧
      localGradientZ M (localDofs M.dim) (residualF M P pE pP ord) sch { A with z := List.ofFn z } = .ok J ∧
      ∀ cell, cell < M.nc →
        (0 < at0 A.c (cell * localDofs M.dim + 1) →
          Smooth (P 0) (pE 0) (pP 0) (numbers M { A with z := List.ofFn z } cell)) →
        ∀ i, i < localDofs M.dim → HasFDerivAt (fun y => (r y).e cell i) (∑ a ∈ range M.npc,
          J.e cell i a • coord M.nn (cellNode M.npc M.c2n cell a)) z := by
  have hB := range_blocks h0 h1
  have hk : 0 < M.domains.length := by simp [h1]
  have hA' : ∀ y : Fin M.nn → ℝ, ({ A with z := List.ofFn y } : Args ℝ).Ok M (localDofs M.dim) :=
    fun y => ⟨hA.u, hA.up, hA.c, hA.cp, List.length_ofFn, hA.x⟩
  obtain ⟨r, r1, r2⟩ := residual_deriv (pE := pE) (pP := pP) (x := z)
    (a := fun y => { A with z := List.ofFn y }) (cols := M.npc)
    (L := fun cell a => coord M.nn (cellNode M.npc M.c2n cell a))
    (mk := ⟨constOf, constOf, constOf, constOf, seedOf, constOf⟩) hM hB hJ hA'
    (fun cell => ⟨fun _ _ => Tracks.const _, fun _ _ => Tracks.const _, fun _ _ => Tracks.const _, fun l hl => by
        simp only [cellData, numbers, plainMk, plainOf, seedOf, at0_ofFn]
        exact Tracks.seed (L := fun a => coord _ (cellNode M.npc M.c2n cell a)) hl,
      fun _ _ _ _ => Tracks.const _⟩)
    hoR hsR
  obtain ⟨J, hJ1, -, hJ2⟩ := C64_gradient_z_one hM localDofs_pos hs h0 h1
    (residualF_rowWise (pE := pE) (pP := pP) hM hB hJ ho) (hA' z)
  refine ⟨r, J, r1, hJ1, fun cell hcell hS i hi => ?_⟩
  have hmem : cell ∈ dom M 0 := by rw [dom_one h1]; exact List.mem_range.2 hcell
  refine (r2 0 hk cell hmem hS (.inr fun _ => rfl) i hi).congr_fderiv (sum_congr rfl fun l hl => ?_)
  rw [hJ2 cell i l hcell hi (mem_range.1 hl)]

/-- **C65**, derivative by the coordinates, for one domain with all cells. -/
theorem C65_gradient_x_one {x : Fin (M.nn * M.dim) → ℝ}
    {ordR : (Fin (M.nn * M.dim) → ℝ) → Nat → List Nat} (hoR : ∀ y, OrdOk M (ordR y))
    {schR : (Fin (M.nn * M.dim) → ℝ) → Nat → Nat → List Nat} (hsR : ∀ y, LSched M (schR y)) :
    ∃ (r : (Fin (M.nn * M.dim) → ℝ) → V2 ℝ) (J : V3 ℝ),
      (∀ y, j2Residual M P (ordR y) (schR y) { A with x := List.ofFn y } = .ok (r y)) ∧
      localGradientX M (localDofs M.dim) (residualF M P pE pP ord) sch { A with x := List.ofFn x } = .ok J ∧
      ∀ cell, cell < M.nc →
        (0 < at0 A.c (cell * localDofs M.dim + 1) →
          Smooth (P 0) (pE 0) (pP 0) (numbers M { A with x := List.ofFn x } cell)) →
        ∀ i, i < localDofs M.dim → HasFDerivAt (fun y => (r y).e cell i) (∑ l ∈ range (M.npc * M.dim),
          J.e cell i l • coord (M.nn * M.dim) (M.dim * cellNode M.npc M.c2n cell (l / M.dim) + l % M.dim)) x := by
  have hB := range_blocks h0 h1
  have hk : 0 < M.domains.length := by simp [h1]
  have hA' : ∀ y : Fin (M.nn * M.dim) → ℝ, ({ A with x := List.ofFn y } : Args ℝ).Ok M (localDofs M.dim) :=
    fun y => ⟨hA.u, hA.up, hA.c, hA.cp, hA.z, List.length_ofFn⟩
  obtain ⟨r, r1, r2⟩ := residual_deriv (pE := pE) (pP := pP) (x := x)
    (a := fun y => { A with x := List.ofFn y }) (cols := M.npc * M.dim)
    (L := fun cell l => coord (M.nn * M.dim) (M.dim * cellNode M.npc M.c2n cell (l / M.dim) + l % M.dim))
    (mk := ⟨constOf, constOf, constOf, constOf, constOf, seedOf⟩) hM hB hJ hA'
    (fun cell => ⟨fun _ _ => Tracks.const _, fun _ _ => Tracks.const _, fun _ _ => Tracks.const _,
      fun _ _ => Tracks.const _, fun a k ha hk => by
        have hdiv : (a * M.dim + k) / M.dim = a := by
          rw [Nat.mul_comm, Nat.mul_add_div hM.dim, Nat.div_eq_of_lt hk, Nat.add_zero]
        have hmod : (a * M.dim + k) % M.dim = k := by
          rw [Nat.mul_comm, Nat.mul_add_mod, Nat.mod_eq_of_lt hk]
        have := Tracks.seed (x := x) (L := fun l => coord (M.nn * M.dim) (M.dim * cellNode M.npc M.c2n cell (l / M.dim) +
          l % M.dim)) (local_lt ha hk)
        simp only [hdiv, hmod] at this
        simp only [cellData, numbers, plainMk, plainOf, seedOf, at0_ofFn]
        exact this⟩)
    hoR hsR
  obtain ⟨J, hJ1, -, hJ2⟩ := C64_gradient_x_one hM localDofs_pos hs h0 h1
    (residualF_rowWise (pE := pE) (pP := pP) hM hB hJ ho) (hA' x)
  refine ⟨r, J, r1, hJ1, fun cell hcell hS i hi => ?_⟩
  have hmem : cell ∈ dom M 0 := by rw [dom_one h1]; exact List.mem_range.2 hcell
  refine (r2 0 hk cell hmem hS (.inr fun _ => rfl) i hi).congr_fderiv (sum_congr rfl fun l hl => ?_)
  rw [hJ2 cell i l hcell hi (mem_range.1 hl)]

end One
end Plato.J2
