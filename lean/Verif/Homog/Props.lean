import Verif.Homog.Cells
import Verif.Mech.Stiffness

/-!
# C88: effective energy of a cell problem
-/

namespace Plato.Homog
open Finset Plato Plato.Mech Plato.Crit

/-! ## Specification -/

/-- Strain of a displacement in cell `c` of domain `k`. -/
noncomputable def strainOf (M : FeModel) (P : Nat → Elastostatic ℝ) (x : List ℝ) (u : Nat → ℝ) (k c t : Nat) : ℝ :=
  (P k).strainForm (fun l => u (cellDof M.npc M.ndof M.c2n (gcell (M.part k) c) l)) (M.cellX x (gcell (M.part k) c)) t

/-- Stiffness of the mesh as bilinear form of two fields of strain: sum over the cells of volume, penalty,
strain : stiffness : strain. -/
noncomputable def stored (M : FeModel) (P : Nat → Elastostatic ℝ) (z x : List ℝ) (f g : Nat → Nat → Nat → ℝ) : ℝ :=
  ∑ k ∈ range M.domains.length, ∑ c ∈ range (M.size (M.part k)),
    (P k).volForm abs (M.cellX x (gcell (M.part k) c)) *
      (P k).pen (meanDensity ((P k).d + 1) (M.cellZ z (gcell (M.part k) c))) *
    ∑ t ∈ range (numVoigt (P k).d), ∑ s ∈ range (numVoigt (P k).d), f k c s * (P k).stiff t s * g k c t

/-- A constant strain. -/
def constant (a : Nat → ℝ) : Nat → Nat → Nat → ℝ := fun _ _ t => a t

/-- Unit strain of a column. -/
def unit (col : Nat) : Nat → ℝ := fun t => if t = col then 1 else 0

/-- Unit strain less the strain of a displacement. -/
noncomputable def excess (M : FeModel) (P : Nat → Elastostatic ℝ) (x : List ℝ) (col : Nat) (u : Nat → ℝ) :
    Nat → Nat → Nat → ℝ := fun k c t => unit col t - strainOf M P x u k c t

/-- Stiffnesses are symmetric. -/
def Symm (M : FeModel) (P : Nat → Elastostatic ℝ) : Prop :=
  ∀ k t s, k < M.domains.length → t < numVoigt (P k).d → s < numVoigt (P k).d → (P k).stiff t s = (P k).stiff s t

/-- Weights, penalties and stiffnesses are not negative. -/
structure Semidefinite (M : FeModel) (P : Nat → Elastostatic ℝ) (z : List ℝ) : Prop where
  weight : ∀ k, k < M.domains.length → 0 ≤ (P k).cubWeight
  pen : ∀ k c, k < M.domains.length → c < M.size (M.part k) →
    0 ≤ (P k).pen (meanDensity ((P k).d + 1) (M.cellZ z (gcell (M.part k) c)))
  stiff : ∀ k (g : Nat → ℝ), k < M.domains.length →
    0 ≤ ∑ t ∈ range (numVoigt (P k).d), ∑ s ∈ range (numVoigt (P k).d), g s * (P k).stiff t s * g t

section Form
variable {M : FeModel} {P : Nat → Elastostatic ℝ} {z x : List ℝ}

theorem stored_lin (a b : ℝ) (f f' g : Nat → Nat → Nat → ℝ) :
    stored M P z x (fun k c t => a * f k c t + b * f' k c t) g = a * stored M P z x f g + b * stored M P z x f' g := by
  unfold stored
  simp only [mul_sum, ← sum_add_distrib]
  exact sum_congr rfl fun k _ => sum_congr rfl fun c _ => sum_congr rfl fun t _ => sum_congr rfl fun s _ => by ring

theorem stored_symm (hs : Symm M P) (f g : Nat → Nat → Nat → ℝ) : stored M P z x f g = stored M P z x g f := by
  unfold stored
  refine sum_congr rfl fun k hk => sum_congr rfl fun c _ => ?_
  congr 1
  rw [sum_comm]
  refine sum_congr rfl fun s hs' => sum_congr rfl fun t ht => ?_
  rw [hs k t s (mem_range.1 hk) (mem_range.1 ht) (mem_range.1 hs')]
  ring

theorem stored_nonneg (h : Semidefinite M P z) (f : Nat → Nat → Nat → ℝ) : 0 ≤ stored M P z x f f := by
  unfold stored
  refine sum_nonneg fun k hk => sum_nonneg fun c hc => ?_
  have hk' := mem_range.1 hk
  exact mul_nonneg (mul_nonneg (mul_nonneg (abs_nonneg _) (h.weight k hk')) (h.pen k c hk' (mem_range.1 hc)))
    (h.stiff k _ hk')

end Form

/-! ## The cell problem -/

/-- A cell problem: no reference strain, no body load, forcing with a column of the stiffness. -/
structure CellProblem (M : FeModel) (P : Nat → Elastostatic ℝ) (col : Nat) : Prop where
  column : ∀ k, k < M.domains.length → col < numVoigt (P k).d
  forcing : ∀ k, k < M.domains.length → (P k).forcing = some col
  ref : ∀ k t, k < M.domains.length → t < numVoigt (P k).d → (P k).refStrain t = 0
  loads : ∀ k, k < M.domains.length → (P k).bodyLoads = []

section Residual
variable {M : FeModel} (hM : M.Ok) {P : Nat → Elastostatic ℝ} (h : ResOk M P) {col : Nat} (hc : CellProblem M P col)
  {init : Nat → Nat → Nat → Nat} {eR : Nat → Nat → List Nat}
  (heR : ∀ k j, IsSchedule (eR k j) (M.size (M.part k)))
  {u z x : List ℝ} (hu : u.length = M.nn * M.ndof) (hz : z.length = M.nn) (hx : x.length = M.nn * M.dim)
  {sch : Nat → Nat → List Nat} (hs : SchedOk M sch (M.npc * M.ndof))
include hM h hc heR hu hz hx hs

/-- **C88, cell problem**: the residual of a problem with cell forcing does, on every virtual displacement, the
work of the strain less the unit strain. -/
theorem C88_residual :
    (M.value (elastostatic abs M P init eR) sch u z x).Sat fun r => r.length = M.nn * M.ndof ∧ ∀ w : Nat → ℝ,
      ∑ q ∈ range (M.nn * M.ndof), at0 r q * w q =
        -stored M P z x (excess M P x col (at0 u)) (strainOf M P x w) := by
  obtain ⟨v, hv, hl, hq⟩ := C47_value hM h heR (init := init) hu hz hx hs
  refine ⟨v, hv, hl, fun w => ?_⟩
  simp only [hq, sum_mul]
  rw [sum_comm]
  unfold stored
  rw [← sum_neg_distrib]
  refine sum_congr rfl fun k hk => ?_
  have hk' := mem_range.1 hk
  rw [scatteredVec_pairing hM.mesh (hM.domOk k) _ w, ← sum_neg_distrib]
  refine sum_congr rfl fun c _ => ?_
  have hPd : (P k).d = M.dim := h.d k hk'
  have hd3 : (P k).d = 1 ∨ (P k).d = 2 ∨ (P k).d = 3 := by rw [hPd]; exact h.dim
  have hnd : M.npc * M.ndof = ((P k).d + 1) * (P k).d := by rw [h.ndof, FeModel.npc, hPd]
  have hload : ∀ l, (P k).loadRow c (gcell (M.part k) c) (M.cellZ z (gcell (M.part k) c)) l = 0 := by
    intro l
    unfold Elastostatic.loadRow
    rw [hc.loads k hk']
    rfl
  unfold cellRow
  simp only [hload, add_zero]
  rw [hnd, forceRow_work hd3, mul_assoc, ← mul_neg]
  congr 1
  rw [← mul_neg, ← sum_neg_distrib, mul_sum]
  refine sum_congr rfl fun t ht => ?_
  have e : (P k).stressForm (M.cellU u (gcell (M.part k) c)) (M.cellZ z (gcell (M.part k) c))
      (M.cellX x (gcell (M.part k) c)) t = -((P k).pen (meanDensity ((P k).d + 1) (M.cellZ z (gcell (M.part k) c))) *
      ∑ s ∈ range (numVoigt (P k).d), excess M P x col (at0 u) k c s * (P k).stiff t s) := by
    unfold Elastostatic.stressForm Elastostatic.solidStress Elastostatic.forcingForm
    rw [hc.forcing k hk']
    dsimp only
    have e1 : ∑ s ∈ range (numVoigt (P k).d), unit col s * (P k).stiff t s = (P k).stiff t col := by
      rw [sum_eq_single_of_mem col (mem_range.2 (hc.column k hk'))]
      · simp [unit]
      · intro s _ hs'
        simp [unit, hs']
    rw [← e1]
    unfold excess
    simp only [sub_mul, sum_sub_distrib]
    have e0 : ∑ s ∈ range (numVoigt (P k).d), (P k).refStrain s * (P k).stiff t s = 0 :=
      sum_eq_zero fun s hs' => by rw [hc.ref k s hk' (mem_range.1 hs'), zero_mul]
    rw [e0]
    have e2 : ∑ s ∈ range (numVoigt (P k).d), (P k).strainForm (M.cellU u (gcell (M.part k) c))
        (M.cellX x (gcell (M.part k) c)) s * (P k).stiff t s =
        ∑ s ∈ range (numVoigt (P k).d), strainOf M P x (at0 u) k c s * (P k).stiff t s := rfl
    rw [e2]
    ring
  rw [e, ← sum_mul]
  unfold strainOf
  ring

end Residual

/-! ## The criterion -/

section Value
variable {M : FeModel} (hM : M.Ok) {P : Nat → Elastostatic ℝ} (h : MechOk M P)
include h

theorem effective_local (col : Nat) (a : Nat → ℝ) : FormLocal M fun k U Z X => effectiveForm abs (P k) col a U Z X := by
  intro k U U' Z Z' X X' hk hU hZ hX
  have hd := h.d k hk
  have hnp : M.npc = (P k).d + 1 := by rw [FeModel.npc, hd]
  have hU' : ∀ l, l < ((P k).d + 1) * (P k).d → U l = U' l :=
    fun l hl => hU l (by rw [hnp, h.ndof, ← hd]; exact hl)
  have hX' : ∀ a i, a < (P k).d + 1 → i < (P k).d → X a i = X' a i := fun a i ha hi => hX a i (by omega) (by omega)
  dsimp only
  unfold effectiveForm Elastostatic.volForm
  rw [detForm_congr (h.d3 hk) hX', meanDensity_congr fun a ha => hZ a (by omega)]
  simp only [strainForm_congr (h.d3 hk) hU' hX']

variable {penF : Nat → Fad → Fad} {eR eF : Nat → List Nat} (heR : ∀ k, IsSchedule (eR k) (M.size (M.part k)))
  (heF : ∀ k, IsSchedule (eF k) (M.size (M.part k)))

include heR in
theorem effective_computes (col : Nat) (a : Nat → ℝ) (dt : ℝ) : Computes M (effectiveEnergy abs P col a eR) dt
    fun k U Z X => effectiveForm abs (P k) col a U Z X := by
  intro k s z x hk hp
  refine (effectiveEnergy_ok abs (h.d3 hk) col a (h.wsOk hk hp) (by rw [hp.s0]; exact heR k)
    (by rw [List.length_replicate, hp.s0])).mono ?_
  rintro r ⟨hl, hq⟩
  refine ⟨hl.trans hp.s0, fun c hc => ?_⟩
  rw [hq c (by rw [hp.s0]; exact hc), at0_replicate, zero_add]

include heF in
theorem effective_computes_fad (col : Nat) (a : Nat → ℝ) (dt : ℝ) :
    Computes M (effectiveEnergy Fad.fabs (fun k => (P k).lift (penF k)) col (fun t => Fad.const (a t)) eF) dt
      fun k U Z X => effectiveForm Fad.fabs ((P k).lift (penF k)) col (fun t => Fad.const (a t)) U Z X := by
  intro k s z x hk hp
  refine (effectiveEnergy_ok (P := (P k).lift (penF k)) Fad.fabs (h.d3 hk) col (fun t => Fad.const (a t))
    (h.wsOk hk hp) (by rw [hp.s0]; exact heF k) (by rw [List.length_replicate, hp.s0])).mono ?_
  rintro r ⟨hl, hq⟩
  refine ⟨hl.trans hp.s0, fun c hc => ?_⟩
  rw [hq c (by rw [hp.s0]; exact hc), at0_replicate, zero_add]

include heR heF in
theorem effective_tracks {E : Type} [NormedAddCommGroup E] [NormedSpace ℝ E] (col : Nat) (a : Nat → ℝ) (dt : ℝ) (x : E) :
    CritTracks M (effectiveEnergy abs P col a eR)
      (effectiveEnergy Fad.fabs (fun k => (P k).lift (penF k)) col (fun t => Fad.const (a t)) eF)
      (fun _ Z X => goodCell M P penF Z X) dt x := by
  refine critTracks_of_form (effective_computes h heR col a dt) (effective_computes_fad h heF col a dt) ?_
  intro k N L UF ZF XF UR ZR XR hk hU hZ hX hg
  have hd := h.d k hk
  have hnp : M.npc = (P k).d + 1 := by rw [FeModel.npc, hd]
  refine effectiveForm_tracks (h.d3 hk) (fun l hl => hU l (by rw [hnp, h.ndof, ← hd]; exact hl))
    (fun n hn => hZ n (by omega)) (fun n i hn hi => hX n i (by omega) (by omega)) ?_ ?_ col a
  · rw [hd]; exact hg.1
  · rw [hd]; exact hg.2 k hk

variable {sv : Sched} {wv : Nat} {u z x : List ℝ} (hu : u.length = M.nn * M.ndof)
  (hz : z.length = M.nn) (hx : x.length = M.nn * M.dim) (hsv : sv.Ok M 1 wv)
include hM heR hu hz hx hsv

/-- **C88, value**: the criterion is the stiffness form of the assumed strain and of the unit strain less the
strain of the displacement. -/
theorem C88_value {col : Nat} (hcol : ∀ k, k < M.domains.length → col < numVoigt (P k).d) (a : Nat → ℝ) (dt : ℝ) :
    physicsValue M (effectiveEnergy abs P col a eR) Post.none sv [u] z x dt =
      .ok (stored M P z x (constant a) (excess M P x col (at0 u))) := by
  rw [value_of_form hM (effective_computes h heR col a dt) (effective_local h col a) (by simpa using hu) hz hx hsv]
  congr 1
  unfold Post.none
  dsimp only
  unfold stored
  refine sum_congr rfl fun k hk => ?_
  have hk' := mem_range.1 hk
  rw [show [u].length = 1 from rfl, sum_range_one]
  refine sum_congr rfl fun c _ => ?_
  unfold effectiveForm
  rw [one_mul, mul_comm, mul_assoc]
  congr 1
  rw [sum_comm, mul_sum]
  refine sum_congr rfl fun t _ => ?_
  have e1 : ∑ s ∈ range (numVoigt (P k).d), unit col s * (P k).stiff s t = (P k).stiff col t := by
    rw [sum_eq_single_of_mem col (mem_range.2 (hcol k hk'))]
    · simp [unit]
    · intro s _ hs'
      simp [unit, hs']
  have e2 : ∑ s ∈ range (numVoigt (P k).d), (P k).strainForm (cellS M ([u][0]?.getD []) (gcell (M.part k) c))
      (M.cellX x (gcell (M.part k) c)) s * (P k).stiff s t =
      ∑ s ∈ range (numVoigt (P k).d), strainOf M P x (at0 u) k c s * (P k).stiff s t := rfl
  rw [e2, ← e1, ← sum_sub_distrib]
  have e3 : ∑ s ∈ range (numVoigt (P k).d), constant a k c t * (P k).stiff s t * excess M P x col (at0 u) k c s =
      constant a k c t * ∑ s ∈ range (numVoigt (P k).d),
        (unit col s * (P k).stiff s t - strainOf M P x (at0 u) k c s * (P k).stiff s t) := by
    rw [mul_sum]
    exact sum_congr rfl fun s _ => by unfold excess; ring
  rw [e3]
  unfold constant
  ring

end Value

/-! ## What homogenisation relies on -/

section Theory
variable {M : FeModel} {P : Nat → Elastostatic ℝ} {z x : List ℝ}

theorem stored_excess (hs : Symm M P) (col : Nat) (u : Nat → ℝ) (f : Nat → Nat → Nat → ℝ) :
    stored M P z x f (excess M P x col u) =
      stored M P z x f (constant (unit col)) - stored M P z x f (strainOf M P x u) := by
  rw [stored_symm hs f, stored_symm hs f (constant (unit col)), stored_symm hs f (strainOf M P x u)]
  have := stored_lin (M := M) (P := P) (z := z) (x := x) 1 (-1) (constant (unit col)) (strainOf M P x u) f
  rw [show excess M P x col u = fun k c t => 1 * constant (unit col) k c t + -1 * strainOf M P x u k c t by
    funext k c t; unfold excess constant; ring, this]
  ring

end Theory

section Main
variable {M : FeModel} (hM : M.Ok) {P P' : Nat → Elastostatic ℝ} (h : ResOk M P) {col : Nat} (hc : CellProblem M P col)
  {init : Nat → Nat → Nat → Nat} {eR : Nat → Nat → List Nat}
  (heR : ∀ k j, IsSchedule (eR k j) (M.size (M.part k)))
  {eC : Nat → List Nat} (heC : ∀ k, IsSchedule (eC k) (M.size (M.part k)))
  {u z x : List ℝ} (hu : u.length = M.nn * M.ndof) (hz : z.length = M.nn) (hx : x.length = M.nn * M.dim)
  {sch : Nat → Nat → List Nat} (hs : SchedOk M sch (M.npc * M.ndof)) {sv : Sched} {wv : Nat} (hsv : sv.Ok M 1 wv)
  (hsym : Symm M P) {r : List ℝ} (hr : M.value (elastostatic abs M P init eR) sch u z x = .ok r)
include hM h hc heR heC hu hz hx hs hsv hsym hr

omit heC hsv in
/-- Where the residual does no work on `w`, the strain of `w` does no work on the excess strain. -/
theorem orthogonal {w : Nat → ℝ} (hw : ∑ q ∈ range (M.nn * M.ndof), at0 r q * w q = 0) :
    stored M P z x (strainOf M P x w) (excess M P x col (at0 u)) = 0 := by
  obtain ⟨r', e, -, hq⟩ := C88_residual hM h hc heR (init := init) hu hz hx hs
  rw [hr, Res.ok.injEq] at e
  subst e
  rw [hq w] at hw
  rw [stored_symm hsym]
  linarith

/-- **C88, energy**: if the residual of the cell problem of column `col` does no work on `v` then the criterion
with the unit strain of column `l` is the energy of the two excess strains. -/
theorem C88_energy {l : Nat} {v : Nat → ℝ} (hv : ∑ q ∈ range (M.nn * M.ndof), at0 r q * v q = 0) (dt : ℝ) :
    physicsValue M (effectiveEnergy abs P col (unit l) eC) Post.none sv [u] z x dt =
      .ok (stored M P z x (excess M P x l v) (excess M P x col (at0 u))) := by
  rw [C88_value hM ⟨h.dim, h.ndof, h.d⟩ heC hu hz hx hsv hc.column]
  congr 1
  have h0 := orthogonal hM h hc heR hu hz hx hs hsym hr hv
  rw [stored_symm hsym (excess M P x l v), stored_excess hsym l v, stored_symm hsym _ (constant (unit l)),
    stored_symm hsym _ (strainOf M P x v), h0, sub_zero]

/-- **C88, sign and least energy**: in equilibrium the criterion with the unit strain of the column is not
negative, and it is the least energy: no admissible displacement gives a smaller energy of the excess strain.
With `w = 0` this is the bound by the mean stiffness. -/
theorem C88_minimum (hpos : Semidefinite M P z) (hself : ∑ q ∈ range (M.nn * M.ndof), at0 r q * at0 u q = 0) (dt : ℝ) :
    ∃ e, physicsValue M (effectiveEnergy abs P col (unit col) eC) Post.none sv [u] z x dt = .ok e ∧ 0 ≤ e ∧
      ∀ w : Nat → ℝ, ∑ q ∈ range (M.nn * M.ndof), at0 r q * w q = 0 →
        e ≤ stored M P z x (excess M P x col w) (excess M P x col w) := by
  refine ⟨_, C88_energy hM h hc heR heC hu hz hx hs hsv hsym hr hself dt, stored_nonneg hpos _, fun w hw => ?_⟩
  have h0 := orthogonal hM h hc heR hu hz hx hs hsym hr hself
  have h1 := orthogonal hM h hc heR hu hz hx hs hsym hr hw
  have hd := stored_nonneg (x := x) hpos fun k c t =>
    1 * excess M P x col w k c t + -1 * excess M P x col (at0 u) k c t
  rw [stored_lin, stored_symm hsym (excess M P x col w), stored_symm hsym (excess M P x col (at0 u)) (fun k c t => _),
    stored_lin, stored_lin] at hd
  have e1 : stored M P z x (excess M P x col w) (excess M P x col (at0 u)) =
      stored M P z x (constant (unit col)) (excess M P x col (at0 u)) := by
    rw [stored_symm hsym, stored_excess hsym, stored_symm hsym _ (constant (unit col)),
      stored_symm hsym _ (strainOf M P x w), h1, sub_zero]
  have e2 : stored M P z x (excess M P x col (at0 u)) (excess M P x col (at0 u)) =
      stored M P z x (constant (unit col)) (excess M P x col (at0 u)) := by
    rw [stored_excess hsym (f := excess M P x col (at0 u)), stored_symm hsym _ (constant (unit col)),
      stored_symm hsym _ (strainOf M P x (at0 u)), h0, sub_zero]
  rw [stored_symm hsym (excess M P x col (at0 u)) (excess M P x col w), e1, e2] at hd
  rw [e2]
  linarith

end Main

/-! ## Symmetry of the effective stiffness -/

/-- The members of a problem with another forcing. -/
def withForcing (P : Nat → Elastostatic ℝ) (col : Nat) : Nat → Elastostatic ℝ := fun k =>
  ⟨(P k).d, (P k).stiff, (P k).refStrain, (P k).pen, (P k).cubWeight, some col, (P k).bodyLoads⟩

section Symmetry
variable {M : FeModel} (hM : M.Ok) {P : Nat → Elastostatic ℝ} (h : ResOk M P)
  (href : ∀ k t, k < M.domains.length → t < numVoigt (P k).d → (P k).refStrain t = 0)
  (hload : ∀ k, k < M.domains.length → (P k).bodyLoads = []) (hsym : Symm M P)
  {i j : Nat} (hi : ∀ k, k < M.domains.length → i < numVoigt (P k).d)
  (hj : ∀ k, k < M.domains.length → j < numVoigt (P k).d)
  {init : Nat → Nat → Nat → Nat} {eR : Nat → Nat → List Nat}
  (heR : ∀ k j, IsSchedule (eR k j) (M.size (M.part k)))
  {eC eC' : Nat → List Nat} (heC : ∀ k, IsSchedule (eC k) (M.size (M.part k)))
  (heC' : ∀ k, IsSchedule (eC' k) (M.size (M.part k)))
  {u v z x : List ℝ} (hu : u.length = M.nn * M.ndof) (hv : v.length = M.nn * M.ndof) (hz : z.length = M.nn)
  (hx : x.length = M.nn * M.dim)
  {sch : Nat → Nat → List Nat} (hs : SchedOk M sch (M.npc * M.ndof)) {sv sv' : Sched} {wv wv' : Nat}
  (hsv : sv.Ok M 1 wv) (hsv' : sv'.Ok M 1 wv')
include hM h href hload hsym hi hj heR heC heC' hu hv hz hx hs hsv hsv'

/-- **C88, symmetry**: the entries (i, j) and (j, i) of the effective stiffness, computed from the solutions of the
two cell problems, are equal. -/
theorem C88_symmetric {r r' : List ℝ}
    (hr : M.value (elastostatic abs M (withForcing P i) init eR) sch u z x = .ok r)
    (hr' : M.value (elastostatic abs M (withForcing P j) init eR) sch v z x = .ok r')
    (huv : ∑ q ∈ range (M.nn * M.ndof), at0 r q * at0 v q = 0)
    (hvu : ∑ q ∈ range (M.nn * M.ndof), at0 r' q * at0 u q = 0) (dt : ℝ) :
    physicsValue M (effectiveEnergy abs (withForcing P i) i (unit j) eC) Post.none sv [u] z x dt =
      physicsValue M (effectiveEnergy abs (withForcing P j) j (unit i) eC') Post.none sv' [v] z x dt := by
  have ok : ∀ c, ResOk M (withForcing P c) := fun c => ⟨h.dim, h.ndof, h.d, h.loads⟩
  rw [C88_energy hM (ok i) ⟨hi, fun _ _ => rfl, href, hload⟩ heR heC hu hz hx hs hsv hsym hr huv dt,
    C88_energy hM (ok j) ⟨hj, fun _ _ => rfl, href, hload⟩ heR heC' hv hz hx hs hsv' hsym hr' hvu dt]
  congr 1
  exact stored_symm (P := withForcing P i) hsym _ _

end Symmetry

/-! ## Derivatives -/

section Derivatives
variable {M : FeModel} (hM : M.Ok) {P : Nat → Elastostatic ℝ} (h : MechOk M P) {penF : Nat → Fad → Fad}
  {eR eX eU eZ : Nat → List Nat} (heR : ∀ k, IsSchedule (eR k) (M.size (M.part k)))
  (heX : ∀ k, IsSchedule (eX k) (M.size (M.part k))) (heU : ∀ k, IsSchedule (eU k) (M.size (M.part k)))
  (heZ : ∀ k, IsSchedule (eZ k) (M.size (M.part k))) {sv sx su sz : Sched} {wv : Nat} {S : List (List ℝ)}
  {z : Fin M.nn → ℝ} {x : Fin (M.nn * M.dim) → ℝ} {u : Fin (M.nn * M.ndof) → ℝ} {j : Nat}
include hM h heR heX heU heZ

/-- **C88, derivatives** by coordinates, displacements and controls. -/
theorem C88_gradient (col : Nat) (a : Nat → ℝ) (dt : ℝ) (hj : S[j]? = some (List.ofFn u))
    (hS : ∀ u ∈ S, u.length = M.nn * M.ndof)
    (hgood : ∀ c, c < M.nc → goodCell M P penF (M.cellZ (List.ofFn z) c) (M.cellX (List.ofFn x) c))
    (hsv : sv.Ok M S.length wv) (hsx : sx.Ok M S.length (M.npc * M.dim)) (hsu : su.Ok M 1 (M.npc * M.ndof))
    (hsz : sz.Ok M S.length (M.npc * 1)) :
    Differentiates (physicsCriterion M (effectiveEnergy abs P col a eR)
      (effectiveEnergy Fad.fabs (fun k => (P k).lift (penF k)) col (fun t => Fad.const (a t)) eX)
      (effectiveEnergy Fad.fabs (fun k => (P k).lift (penF k)) col (fun t => Fad.const (a t)) eU)
      (effectiveEnergy Fad.fabs (fun k => (P k).lift (penF k)) col (fun t => Fad.const (a t)) eZ) Post.none sv sx su sz)
      (M.nn * M.dim) (M.nn * M.ndof) M.nn S z x j u dt :=
  C51_differentiates hM (mechLocal h) hj hS (effective_tracks h heR heX col a dt _)
    (effective_tracks h heR heU col a dt _) (effective_tracks h heR heZ col a dt _) (fun _ _ c hc => hgood c hc)
    hsv hsx hsu hsz (.inr rfl) fun m v _ _ => Post.none_ok m v

end Derivatives

theorem input_loop (a : List ℝ) : ∀ (n i : Nat) (b : List ℝ),
    forUp (fun i b => rd a i >>= fun v => pure (b ++ [v])) n i b =
      if i + n ≤ a.length ∨ n = 0 then .ok (b ++ (a.drop i).take n) else .ub := by
  intro n
  induction n with
  | zero => intro i b; simp [forUp]
  | succ n ih =>
    intro i b
    unfold forUp
    by_cases hi : i < a.length
    · rw [rd_eq hi, Res.ok_bind, Res.pure_eq, Res.ok_bind, ih, List.drop_eq_getElem_cons hi, List.take_succ_cons,
        List.append_assoc, List.singleton_append]
      by_cases hn : n = 0
      · subst hn
        rw [if_pos (.inr rfl), if_pos (.inl (by omega))]
      · by_cases hl : i + 1 + n ≤ a.length
        · rw [if_pos (.inl hl), if_pos (.inl (by omega))]
        · rw [if_neg (by omega), if_neg (by omega)]
    · rw [Plato.rd_ub (by omega), if_neg (by omega)]
      rfl

theorem effectiveInput_eq (nv : Nat) (a : List ℝ) (f : Option Nat) : effectiveInput nv a f =
    (if nv ≤ a.length then Res.ok (a.take nv) else .ub) >>= fun b =>
      match f with
      | some col => pure (b, col)
      | none => Res.ub := by
  unfold effectiveInput forRange
  rw [input_loop]
  by_cases hn : nv = 0
  · subst hn
    cases f <;> simp
  · cases f <;> simp [hn]

/-- **C88, input**: the constructor takes the entries of the assumed strain in order, whenever there are enough of
them and a column is given. -/
theorem C88_input {nv : Nat} {a : List ℝ} (ha : nv ≤ a.length) (col : Nat) :
    effectiveInput nv a (some col) = .ok (a.take nv, col) := by
  rw [effectiveInput_eq, if_pos ha]
  rfl

/-- **C88 is false** without `Cell Problem Forcing`, or with an assumed strain that is too short: no message, the
behaviour is undefined. -/
theorem C88_input_false {nv : Nat} {a : List ℝ} : effectiveInput nv a none = .ub ∧
    (a.length < nv → ∀ f, effectiveInput nv a f = .ub) := by
  constructor
  · rw [effectiveInput_eq]
    split <;> rfl
  · intro ha f
    rw [effectiveInput_eq, if_neg (by omega)]
    rfl

end Plato.Homog
