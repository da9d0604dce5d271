import Verif.J2.Return
import Verif.J2.Function
import Verif.Mech.ElasticForm
import Verif.Thermal.Track
import Verif.Tm.Output

/-!
# C63: J2 plasticity on a mesh
-/

namespace Plato.J2
open Finset Plato Plato.Mech

section Congr
variable {R : Type} [CommRing R] [Div R] {P : J2 R} (hd : P.d = 2 ∨ P.d = 3) {U U' C C' Cp Cp' Z Z' : Nat → R}
  {X X' : Nat → Nat → R} (hU : ∀ l, l < (P.d + 1) * P.ndof → U l = U' l)
  (hC : ∀ i, i < localDofs P.d → C i = C' i) (hCp : ∀ i, i < localDofs P.d → Cp i = Cp' i)
  (hZ : ∀ a, a < P.d + 1 → Z a = Z' a) (hX : ∀ a k, a < P.d + 1 → k < P.d → X a k = X' a k)
include hd hU hX

theorem total_congr (t : Nat) : P.total U X t = P.total U' X' t := by
  have hd' : P.d = 1 ∨ P.d = 2 ∨ P.d = 3 := .inr hd
  unfold J2.total
  split
  · refine voigtStrain_congr hd' (fun n i hn hi => hU _ ?_) fun n j hn hj => gradForm_congr hd' hX hj
    have := P.le_ndof
    rw [Nat.mul_comm n, Nat.mul_comm (P.d + 1)]
    rw [Nat.mul_comm P.ndof (P.d + 1)]
    rw [Nat.mul_comm P.ndof n]
    exact local_lt hn (by omega)
  · rfl

omit hd hX in
theorem therm_congr : P.therm U = P.therm U' := by
  unfold J2.therm J2.temp
  by_cases h : P.thermal
  · rw [if_pos h, if_pos h, sum_congr rfl fun n hn => by
      rw [hU _ (local_lt (mem_range.1 hn) (by unfold J2.ndof; rw [if_pos h]; omega))]]
  · rw [if_neg h, if_neg h]

include hC hZ

theorem eta_same {t : Nat} (ht : t < stressTerms P.d) : P.eta U C Z X t = P.eta U' C' Z' X' t := by
  have hle := stressTerms_eq hd
  unfold J2.eta etaForm
  rw [hC _ (by omega), meanDensity_congr hZ]
  congr 1
  refine devForm_congr hd (fun s hs => ?_) ht
  unfold J2.elasticOf
  rw [total_congr hd hU hX, therm_congr hU, hC _ (by omega)]

theorem norm_same (sqrt : R → R) : P.norm sqrt U C Z X = P.norm sqrt U' C' Z' X' := by
  unfold J2.norm
  rw [sqForm_congr fun t ht => eta_same hd hU hC hZ hX ht]

theorem dir_same (sqrt : R → R) {t : Nat} (ht : t < stressTerms P.d) :
    P.dir sqrt U C Z X t = P.dir sqrt U' C' Z' X' t := by
  unfold J2.dir
  rw [eta_same hd hU hC hZ hX ht, norm_same hd hU hC hZ hX]

theorem trial_same (sqrt : R → R) : P.trial sqrt U C Z X = P.trial sqrt U' C' Z' X' := by
  have hle := stressTerms_eq hd
  unfold J2.trial
  rw [norm_same hd hU hC hZ hX, meanDensity_congr hZ, hC 0 (by omega)]

theorem updForm_same (sqrt : R → R) (b : Bool) {i : Nat} (hi : i < localDofs P.d) :
    P.updForm sqrt b U C Z X i = P.updForm sqrt b U' C' Z' X' i := by
  have hle := stressTerms_eq hd
  have hinc : P.incr sqrt U C Z X = P.incr sqrt U' C' Z' X' := by
    unfold J2.incr
    rw [trial_same hd hU hC hZ hX, meanDensity_congr hZ]
  unfold J2.updForm
  rw [hinc, hC i hi, hC 0 (by omega), meanDensity_congr hZ]
  by_cases h0 : i = 0
  · simp only [h0, if_true]
  by_cases h1 : i = 1
  · simp only [h1, if_true]
  by_cases h2 : i < 2 + stressTerms P.d
  · rw [dir_same hd hU hC hZ hX sqrt (show i - 2 < stressTerms P.d by omega)]
    simp only [h0, h1, h2, if_true, if_false]
  · rw [dir_same hd hU hC hZ hX sqrt (show i - 2 - stressTerms P.d < stressTerms P.d by omega)]
    simp only [h0, h1, h2, if_false]

include hCp

theorem evalForm_same (sqrt : R → R) (b : Bool) {i : Nat} (hi : i < localDofs P.d) :
    P.evalForm sqrt b U C Cp Z X i = P.evalForm sqrt b U' C' Cp' Z' X' i := by
  have hle := stressTerms_eq hd
  unfold J2.evalForm
  rw [hC i hi, hC 0 (by omega), hC 1 (by omega), hCp i hi, hCp 0 (by omega), meanDensity_congr hZ,
    norm_same hd hU hC hZ hX]
  by_cases h0 : i = 0
  · simp only [h0, if_true]
  by_cases h1 : i = 1
  · simp only [h1, if_true]
  by_cases h2 : i < 2 + stressTerms P.d
  · rw [dir_same hd hU hC hZ hX sqrt (show i - 2 < stressTerms P.d by omega)]
    simp only [h0, h1, h2, if_true, if_false]
  · rw [dir_same hd hU hC hZ hX sqrt (show i - 2 - stressTerms P.d < stressTerms P.d by omega)]
    simp only [h0, h1, h2, if_false]

end Congr

/-! ## The evaluators -/

section Ev
variable {R : Type} [CommRing R] [Div R]

/-- `J2PlasticityLocalResidual::evaluate` of the domains; `ord k` is the order of its loop over the cells. -/
def residualEv (M : FeModel) (P : Nat → J2 R) (fabs sqrt : R → R) (pos : R → Bool) (ord : Nat → List Nat) :
    LocalEv R := fun k w out =>
  (P k).evaluate fabs sqrt pos (dom M k).length (ord k) w.global w.locl w.prevLocl w.control w.config out

/-- `J2PlasticityLocalResidual::updateLocalState` of the domains. -/
def updateEv (M : FeModel) (P : Nat → J2 R) (fabs sqrt : R → R) (pos : R → Bool) (ord : Nat → List Nat) :
    LocalEv R := fun k w out =>
  (P k).updateLocalState fabs sqrt pos (dom M k).length (ord k) w.global w.prevLocl w.control w.config out

/-- The residuals of the domains suit the mesh. -/
structure JOk (M : FeModel) (P : Nat → J2 R) : Prop where
  dim : M.dim = 2 ∨ M.dim = 3
  d : ∀ k, k < M.domains.length → (P k).d = M.dim
  ndof : ∀ k, k < M.domains.length → (P k).ndof = M.ndof
  basis : ∀ k, k < M.domains.length → (P k).basis.length = M.dim + 1

/-- Orders of the loops of the evaluators. -/
def OrdOk (M : FeModel) (ord : Nat → List Nat) : Prop :=
  ∀ k, k < M.domains.length → IsSchedule (ord k) (dom M k).length

theorem jws_ok {M : FeModel} {P : J2 R} {n : Nat} {w : LocalWs R} (hd : P.d = M.dim) (hn : P.ndof = M.ndof)
    (h : w.Ok M (localDofs M.dim) n) : JWs P n w.global w.prevLocl w.control w.config := by
  constructor
  · exact h.g0
  · rw [h.g1, hd, hn]; exact le_rfl
  · exact h.p0
  · rw [h.p1, hd]
  · exact h.z0
  · rw [h.z1, hd]; exact le_rfl
  · exact h.x0
  · rw [h.x1, hd]; rfl
  · rw [h.x2, hd]

variable {M : FeModel} {P : Nat → J2 R} (hJ : JOk M P) {ord : Nat → List Nat} (ho : OrdOk M ord)
  (fabs sqrt : R → R) (pos : R → Bool)
include hJ ho

theorem residualEv_rowWise : RowWise M (localDofs M.dim) (residualEv M P fabs sqrt pos ord) fun k D i =>
    (P k).evalForm sqrt (pos (D.c 1)) D.u D.c D.cp D.z D.x i := by
  intro k w out D hk hw o0 o1 hD
  have hd : (P k).d = 2 ∨ (P k).d = 3 := by rw [hJ.d k hk]; exact hJ.dim
  have hle := stressTerms_eq hd
  have e := hJ.d k hk
  refine (evaluate_ok fabs sqrt pos hd (by rw [hJ.basis k hk, e]) (jws_ok e (hJ.ndof k hk) hw) hw.c0
    (by rw [hw.c1, e]) (ho k hk) o0 (by rw [o1, e])).mono ?_
  rintro r ⟨r0, r1, r2⟩
  refine ⟨r0, by rw [r1, e], fun c i hc hi => ?_⟩
  have hs := hD c hc
  rw [r2 c i hc (by rwa [e])]
  have h1 : w.locl.e c 1 = (D c).c 1 := hs.c 1 (by rw [← e]; omega)
  rw [h1]
  refine evalForm_same hd (fun l hl => hs.u l ?_) (fun i hi => hs.c i (by rwa [← e])) (fun i hi => hs.cp i (by rwa [← e]))
    (fun a ha => hs.z a (by rw [e] at ha; exact ha)) (fun a k ha hk => hs.x a k (by rw [e] at ha; exact ha) (by rwa [← e]))
    sqrt _ (by rwa [e])
  rw [e, hJ.ndof k hk] at hl
  exact hl

theorem updateEv_rowWise : RowWise M (localDofs M.dim) (updateEv M P fabs sqrt pos ord) fun k D i =>
    (P k).updForm sqrt (pos ((P k).trial sqrt D.u D.cp D.z D.x)) D.u D.cp D.z D.x i := by
  intro k w out D hk hw o0 o1 hD
  have hd : (P k).d = 2 ∨ (P k).d = 3 := by rw [hJ.d k hk]; exact hJ.dim
  have e := hJ.d k hk
  refine (updateLocalState_ok fabs sqrt pos hd (by rw [hJ.basis k hk, e]) (jws_ok e (hJ.ndof k hk) hw)
    (ho k hk) o0 (by rw [o1, e])).mono ?_
  rintro r ⟨r0, r1, r2⟩
  refine ⟨r0, by rw [r1, e], fun c i hc hi => ?_⟩
  have hs := hD c hc
  rw [r2 c i hc (by rwa [e])]
  have hu : ∀ l, l < ((P k).d + 1) * (P k).ndof → w.global.e c l = (D c).u l := fun l hl => hs.u l (by
    rw [e, hJ.ndof k hk] at hl
    exact hl)
  have hcp : ∀ i, i < localDofs (P k).d → w.prevLocl.e c i = (D c).cp i := fun i hi => hs.cp i (by rwa [← e])
  have hz : ∀ a, a < (P k).d + 1 → w.control.e c a = (D c).z a := fun a ha => hs.z a (by rw [e] at ha; exact ha)
  have hx : ∀ a i, a < (P k).d + 1 → i < (P k).d → w.config.e c a i = (D c).x a i :=
    fun a i ha hi => hs.x a i (by rw [e] at ha; exact ha) (by rwa [← e])
  rw [trial_same hd hu hcp hz hx]
  exact updForm_same hd hu hcp hz hx sqrt _ (by rwa [e])

end Ev

/-! ## The properties -/

/-- The tolerance of `updateLocalState`, J2PlasticityLocalResidual.hpp. -/
noncomputable def tolerance : ℝ := 1e-10

theorem tolerance_nonneg : 0 ≤ tolerance := by unfold tolerance; norm_num

/-- Update of the local state on numbers. -/
noncomputable def j2Update (M : FeModel) (P : Nat → J2 ℝ) (ord : Nat → List Nat) (sch : Nat → Nat → List Nat)
    (A : Args ℝ) : Res (List ℝ) :=
  updateLocal M (localDofs M.dim)
    (updateEv M P (fun a => |a|) Real.sqrt (fun f => decide (tolerance < f)) ord) sch A

/-- Local residual on numbers. -/
noncomputable def j2Residual (M : FeModel) (P : Nat → J2 ℝ) (ord : Nat → List Nat)
    (sch : Nat → Nat → List Nat) (A : Args ℝ) : Res (V2 ℝ) :=
  localValueWs M (localDofs M.dim)
    (residualEv M P (fun a => |a|) Real.sqrt (fun f => decide (0 < f)) ord) sch A

/-- The constants of the code. -/
def Consts (M : FeModel) (P : Nat → J2 ℝ) : Prop :=
  ∀ k, k < M.domains.length → (P k).s32 = √(3 / 2) ∧ (P k).s23 = √(2 / 3)

/-- State of a cell of the mesh: the point stored in the list of local states. -/
noncomputable def stateOf (M : FeModel) (c : List ℝ) (cell : Nat) : Point :=
  point M.dim fun i => at0 c (cell * localDofs M.dim + i)

/-- Numbers of a cell. -/
noncomputable def numbers (M : FeModel) (A : Args ℝ) (cell : Nat) : CellData ℝ :=
  cellData M (localDofs M.dim) plainMk A cell

/-- Material of a cell of domain `k`. -/
noncomputable def matOf (M : FeModel) (P : Nat → J2 ℝ) (A : Args ℝ) (k cell : Nat) : Mat :=
  (P k).mat (numbers M A cell).z

/-- Strain of a cell of domain `k`, without the thermal one. -/
noncomputable def strainOf (M : FeModel) (P : Nat → J2 ℝ) (A : Args ℝ) (k cell : Nat) : Tensor :=
  (P k).mechStrain (numbers M A cell).u (numbers M A cell).x

/-- All cells of the domains satisfy `p`. -/
def EachCell (M : FeModel) (p : Nat → Nat → Prop) : Prop :=
  ∀ k, k < M.domains.length → ∀ cell ∈ dom M k, p k cell

section Mesh
variable {M : FeModel} (hM : M.Ok) (hB : Blocks M) {P : Nat → J2 ℝ} (hJ : JOk M P) (hc : Consts M P)
  {A : Args ℝ} (hA : A.Ok M (localDofs M.dim))
  (hm : EachCell M fun k cell => (matOf M P A k cell).Ok) (hp : EachCell M fun _ cell => (stateOf M A.cp cell).Ok)

theorem localDofs_pos {d : Nat} : localDofs d ≠ 0 := by unfold localDofs; split <;> omega

theorem point_congr {d : Nat} (hd : d = 2 ∨ d = 3) {C C' : Nat → ℝ} (h : ∀ i, i < localDofs d → C i = C' i) :
    point d C = point d C' := by
  have hle := stressTerms_eq hd
  unfold point
  rw [Point.mk.injEq]
  exact ⟨h 0 (by omega), h 1 (by omega), (strainTensor_inj hd).2 fun t ht => h _ (by omega),
    (stressTensor_inj hd).2 fun t ht => h _ (by omega)⟩

/-- The stored numbers are determined by the point. -/
theorem point_inj {d : Nat} (hd : d = 2 ∨ d = 3) {C C' : Nat → ℝ} (h : point d C = point d C') {i : Nat}
    (hi : i < localDofs d) : C i = C' i := by
  have hle := stressTerms_eq hd
  unfold point at h
  rw [Point.mk.injEq] at h
  obtain ⟨h0, h1, h2, h3⟩ := h
  rw [strainTensor_inj hd] at h2
  rw [stressTensor_inj hd] at h3
  rcases Nat.lt_or_ge i 2 with h | h
  · interval_cases i
    · exact h0
    · exact h1
  rcases Nat.lt_or_ge i (2 + stressTerms d) with h' | h'
  · have := h2 (i - 2) (by omega)
    rwa [Nat.add_sub_cancel' h] at this
  · have := h3 (i - 2 - stressTerms d) (by omega)
    rwa [show 2 + stressTerms d + (i - 2 - stressTerms d) = i by omega] at this

include hM hB hJ hA

/-- The update, cell by cell. -/
theorem j2Update_ok {ord : Nat → List Nat} (ho : OrdOk M ord) {sch : Nat → Nat → List Nat} (hs : LSched M sch) :
    (j2Update M P ord sch A).Sat fun c => c.length = M.nc * localDofs M.dim ∧
      (EachCell M fun k cell => ∀ i, i < localDofs M.dim → at0 c (cell * localDofs M.dim + i) =
        (P k).updForm Real.sqrt (decide (tolerance < (P k).trial Real.sqrt (numbers M A cell).u
          (numbers M A cell).cp (numbers M A cell).z (numbers M A cell).x)) (numbers M A cell).u
          (numbers M A cell).cp (numbers M A cell).z (numbers M A cell).x i) ∧
      ∀ cell, cell < M.nc → (∀ k, k < M.domains.length → cell ∉ dom M k) → ∀ i, i < localDofs M.dim →
        at0 c (cell * localDofs M.dim + i) = at0 A.c (cell * localDofs M.dim + i) :=
  C64_update hM hB localDofs_pos hs (updateEv_rowWise hJ ho _ _ _) hA

include hc

/-- The update in tensors. -/
theorem j2Update_state {ord : Nat → List Nat} (ho : OrdOk M ord) {sch : Nat → Nat → List Nat} (hs : LSched M sch) :
    (j2Update M P ord sch A).Sat fun c => c.length = M.nc * localDofs M.dim ∧
      (∀ k, k < M.domains.length → ∀ cell ∈ dom M k, stateOf M c cell =
        radial (matOf M P A k cell) tolerance (strainOf M P A k cell) (stateOf M A.cp cell)) ∧
      ∀ cell, cell < M.nc → (∀ k, k < M.domains.length → cell ∉ dom M k) →
        stateOf M c cell = stateOf M A.c cell := by
  refine (j2Update_ok hM hB hJ hA ho hs).mono ?_
  rintro c ⟨c0, c1, c2⟩
  refine ⟨c0, fun k hk cell hcell => ?_, fun cell h1 h2 => point_congr hJ.dim fun i hi => c2 cell h1 h2 i hi⟩
  have hd : (P k).d = 2 ∨ (P k).d = 3 := by rw [hJ.d k hk]; exact hJ.dim
  have e := upd_point hd (numbers M A cell).u (numbers M A cell).cp (numbers M A cell).z (numbers M A cell).x
    (hc k hk).1 (hc k hk).2 tolerance
  rw [hJ.d k hk] at e
  refine Eq.trans ?_ e
  exact point_congr hJ.dim fun i hi => c1 k hk cell hcell i hi

/-- **C63, elastic step**: a cell whose trial value of the yield function is not beyond the tolerance keeps
accumulated plastic strain, plastic strain and backstress, and its multiplier becomes zero. -/
theorem C63_elastic {ord : Nat → List Nat} (ho : OrdOk M ord) {sch : Nat → Nat → List Nat} (hs : LSched M sch)
    {k cell : Nat} (hk : k < M.domains.length) (hcell : cell ∈ dom M k)
    (ht : (matOf M P A k cell).f (strainOf M P A k cell) (stateOf M A.cp cell) ≤ tolerance) :
    (j2Update M P ord sch A).Sat fun c => stateOf M c cell = { stateOf M A.cp cell with inc := 0 } := by
  refine (j2Update_state hM hB hJ hc hA ho hs).mono ?_
  rintro c ⟨-, c1, -⟩
  rw [c1 k hk cell hcell]
  unfold radial
  rw [if_neg (not_lt.2 ht)]

include hm hp

/-- **C63, update**: for every global state, control, mesh and schedule, the update takes the state of every
cell to one that satisfies the conditions of plasticity at the strain of that cell, and the state of a cell
of no domain stays.  The result does not depend on what the local state held before. -/
theorem C63_update {ord : Nat → List Nat} (ho : OrdOk M ord) {sch : Nat → Nat → List Nat} (hs : LSched M sch) :
    (j2Update M P ord sch A).Sat fun c => c.length = M.nc * localDofs M.dim ∧
      (EachCell M fun k cell => Returned (matOf M P A k cell) tolerance (strainOf M P A k cell)
        (stateOf M A.cp cell) (stateOf M c cell)) ∧
      ∀ cell, cell < M.nc → (∀ k, k < M.domains.length → cell ∉ dom M k) →
        stateOf M c cell = stateOf M A.c cell := by
  refine (j2Update_state hM hB hJ hc hA ho hs).mono ?_
  rintro c ⟨c0, c1, c2⟩
  refine ⟨c0, fun k hk cell hcell => ?_, c2⟩
  dsimp only
  rw [c1 k hk cell hcell]
  exact radial_returned (hm k hk cell hcell) tolerance_nonneg (hp k hk cell hcell)

/-- **C63, uniqueness**: a list of local states that satisfies the conditions of plasticity in every cell of
the domains holds the numbers the update computes, in every cell whose trial value of the yield function
does not lie between zero and the tolerance. -/
theorem C63_unique {ord : Nat → List Nat} (ho : OrdOk M ord) {sch : Nat → Nat → List Nat} (hs : LSched M sch)
    {c' : List ℝ} {k cell : Nat} (hk : k < M.domains.length) (hcell : cell ∈ dom M k)
    (h : Returned (matOf M P A k cell) tolerance (strainOf M P A k cell) (stateOf M A.cp cell) (stateOf M c' cell))
    (ht : tolerance < (matOf M P A k cell).f (strainOf M P A k cell) (stateOf M A.cp cell) ∨
      (matOf M P A k cell).f (strainOf M P A k cell) (stateOf M A.cp cell) ≤ 0) :
    (j2Update M P ord sch A).Sat fun c => ∀ i, i < localDofs M.dim →
      at0 c (cell * localDofs M.dim + i) = at0 c' (cell * localDofs M.dim + i) := by
  refine (C63_update hM hB hJ hc hA hm hp ho hs).mono ?_
  rintro c ⟨-, c1, -⟩ i hi
  have e1 := returned_unique (hm k hk cell hcell) (hp k hk cell hcell) (c1 k hk cell hcell) ht
  have e2 := returned_unique (hm k hk cell hcell) (hp k hk cell hcell) h ht
  exact point_inj hJ.dim (e1.trans e2.symm) hi

/-- **C63, the update solves the local equations**: with the updated local state the residual of every cell
is zero, for all schedules of the two functions. -/
theorem C63_solves {ord ord' : Nat → List Nat} (ho : OrdOk M ord) (ho' : OrdOk M ord')
    {sch sch' : Nat → Nat → List Nat} (hs : LSched M sch) (hs' : LSched M sch') :
    (j2Update M P ord sch A).Sat fun c => (j2Residual M P ord' sch' { A with c := c }).Sat fun r =>
      (r.d0 = M.nc ∧ r.d1 = localDofs M.dim) ∧
      ∀ cell i, cell < M.nc → i < localDofs M.dim → r.e cell i = 0 := by
  refine (j2Update_ok hM hB hJ hA ho hs).mono ?_
  rintro c ⟨c0, c1, -⟩
  have hA' : ({ A with c := c } : Args ℝ).Ok M (localDofs M.dim) := ⟨hA.u, hA.up, c0, hA.cp, hA.z, hA.x⟩
  refine (C64_residual hM hB localDofs_pos hs' (residualEv_rowWise hJ ho' _ _ _) hA').mono ?_
  rintro r ⟨r0, r1, r2⟩
  refine ⟨r0, fun cell i hcell hi => ?_⟩
  by_cases h : ∃ k, k < M.domains.length ∧ cell ∈ dom M k
  · obtain ⟨k, hk, hmem⟩ := h
    have hd : (P k).d = 2 ∨ (P k).d = 3 := by rw [hJ.d k hk]; exact hJ.dim
    rw [r1 k hk cell hmem i hi]
    have hpk := hp k hk cell hmem
    have hpk : (point (P k).d (numbers M A cell).cp).Ok := by
      rw [hJ.d k hk]
      exact hpk
    refine evalForm_update (C := (numbers M { A with c := c } cell).c) hd (hc k hk).1 (hc k hk).2 (hm k hk cell hmem)
      hpk tolerance_nonneg (fun j hj => ?_) (by rwa [hJ.d k hk])
    rw [hJ.d k hk] at hj
    exact c1 k hk cell hmem j hj
  · exact r2 cell hcell (fun k hk hmem => h ⟨k, hk, hmem⟩) i hi

/-- **C63, meaning of the local residual**: at any local state whatever, the residual of a cell vanishes exactly
when the state satisfies the conditions of plasticity with flow, or, for a multiplier that is not positive, when
nothing flows.  In the second case the residual does not look at the yield function. -/
theorem C63_residual {ord : Nat → List Nat} (ho : OrdOk M ord) {sch : Nat → Nat → List Nat} (hs : LSched M sch) :
    (j2Residual M P ord sch A).Sat fun r => EachCell M fun k cell =>
      (∀ i, i < localDofs M.dim → r.e cell i = 0) ↔
        if 0 < (stateOf M A.c cell).inc then Returned (matOf M P A k cell) 0 (strainOf M P A k cell)
          (stateOf M A.cp cell) (stateOf M A.c cell)
        else stateOf M A.c cell = { stateOf M A.cp cell with inc := 0 } := by
  refine (C64_residual hM hB localDofs_pos hs (residualEv_rowWise hJ ho _ _ _) hA).mono ?_
  rintro r ⟨-, r1, -⟩ k hk cell hcell
  have hd : (P k).d = 2 ∨ (P k).d = 3 := by rw [hJ.d k hk]; exact hJ.dim
  have hle := stressTerms_eq hJ.dim
  have e := hJ.d k hk
  have hpk : (point (P k).d (numbers M A cell).cp).Ok := by rw [e]; exact hp k hk cell hcell
  have h1 : (∀ i, i < localDofs M.dim → r.e cell i = 0) ↔ ∀ i, i < localDofs M.dim →
      (P k).evalForm Real.sqrt (decide (0 < (numbers M A cell).c 1)) (numbers M A cell).u (numbers M A cell).c
        (numbers M A cell).cp (numbers M A cell).z (numbers M A cell).x i = 0 :=
    forall_congr' fun i => forall_congr' fun hi => by rw [r1 k hk cell hcell i hi]; rfl
  show _ ↔ _
  rw [h1]
  by_cases h0 : 0 < (numbers M A cell).c 1
  · rw [if_pos (show 0 < (stateOf M A.c cell).inc from h0), decide_eq_true h0, ← e]
    have := evalForm_plastic hd (hc k hk).1 (hc k hk).2 (U := (numbers M A cell).u) (X := (numbers M A cell).x)
      (hm k hk cell hcell) hpk h0
    rw [this, e]
    rfl
  · rw [if_neg (show ¬ 0 < (stateOf M A.c cell).inc from h0), decide_eq_false h0]
    constructor
    · intro h
      refine Eq.trans (b := point M.dim fun i => if i = 1 then 0 else (numbers M A cell).cp i) ?_ ?_
      · refine point_congr hJ.dim fun i hi => ?_
        have hi' := h i hi
        simp only [J2.evalForm, Bool.false_eq_true, if_false] at hi'
        by_cases h1 : i = 1
        · subst h1
          rw [if_pos rfl] at hi' ⊢
          exact hi'
        · rw [if_neg h1] at hi' ⊢
          exact sub_eq_zero.1 hi'
      · unfold point stateOf
        simp only [Point.mk.injEq]
        refine ⟨by simp; rfl, by simp, ?_, ?_⟩
        · rw [point, strainTensor_inj hJ.dim]
          intro t _
          rw [if_neg (by omega)]
          rfl
        · rw [point, stressTensor_inj hJ.dim]
          intro t _
          rw [if_neg (by omega)]
          rfl
    · intro h i hi
      have h' : stateOf M A.c cell = point M.dim fun i => if i = 1 then 0 else (numbers M A cell).cp i := by
        rw [h]
        unfold point stateOf
        simp only [Point.mk.injEq]
        refine ⟨by simp; rfl, by simp, ?_, ?_⟩
        · rw [point, strainTensor_inj hJ.dim]
          intro t _
          rw [if_neg (by omega)]
          rfl
        · rw [point, stressTensor_inj hJ.dim]
          intro t _
          rw [if_neg (by omega)]
          rfl
      have := point_inj hJ.dim h' hi
      have : (numbers M A cell).c i = if i = 1 then 0 else (numbers M A cell).cp i := this
      simp only [J2.evalForm, Bool.false_eq_true, if_false]
      by_cases h1 : i = 1
      · rw [if_pos h1] at this ⊢
        rw [← h1]
        exact this
      · rw [if_neg h1] at this ⊢
        rw [this, sub_self]

end Mesh

/-! ## Histories -/

/-- Local states that can be reached from `c0`: in each step the global states, the control, the order of the
loops and the former content of the local state are arbitrary, and the previous local state is the one
reached so far.  The material parameters of every step must be sound. -/
inductive Reached (M : FeModel) (P : Nat → J2 ℝ) : List ℝ → List ℝ → Prop
  | start (c : List ℝ) : Reached M P c c
  | step {c0 c' : List ℝ} {A : Args ℝ} {ord : Nat → List Nat} {sch : Nat → Nat → List Nat} :
      Reached M P c0 A.cp → A.Ok M (localDofs M.dim) → (EachCell M fun k cell => (matOf M P A k cell).Ok) →
      OrdOk M ord → LSched M sch → j2Update M P ord sch A = .ok c' → Reached M P c0 c'

/-- **C63, histories**: along every history the accumulated plastic strain of every cell never decreases, it
grows by √(2/3) times the norm of the change of the plastic strain, no plastic step produces negative
dissipation, and plastic strain and backstress stay deviatoric. -/
theorem C63_history {M : FeModel} (hM : M.Ok) (hB : Blocks M) {P : Nat → J2 ℝ} (hJ : JOk M P) (hc : Consts M P)
    {c0 c : List ℝ} (h0 : EachCell M fun _ cell => (stateOf M c0 cell).Ok) (h : Reached M P c0 c) :
    EachCell M fun _ cell => (stateOf M c cell).Ok ∧ (stateOf M c0 cell).acc ≤ (stateOf M c cell).acc ∧
      ∀ (A : Args ℝ) (ord : Nat → List Nat) (sch : Nat → Nat → List Nat) (c' : List ℝ), A.cp = c →
        A.Ok M (localDofs M.dim) → (EachCell M fun k cell => (matOf M P A k cell).Ok) → OrdOk M ord →
        LSched M sch → j2Update M P ord sch A = .ok c' → EachCell M fun k cell =>
          (stateOf M c cell).acc ≤ (stateOf M c' cell).acc ∧
          (stateOf M c' cell).acc - (stateOf M c cell).acc =
            √(2 / 3) * nrm ((stateOf M c' cell).ep - (stateOf M c cell).ep) ∧
          0 ≤ dot ((matOf M P A k cell).over (strainOf M P A k cell) (stateOf M c' cell))
            ((stateOf M c' cell).ep - (stateOf M c cell).ep) := by
  have key : ∀ {c : List ℝ}, (EachCell M fun _ cell => (stateOf M c cell).Ok) → ∀ (A : Args ℝ)
      (ord : Nat → List Nat) (sch : Nat → Nat → List Nat) (c' : List ℝ), A.cp = c →
        A.Ok M (localDofs M.dim) → (EachCell M fun k cell => (matOf M P A k cell).Ok) → OrdOk M ord →
        LSched M sch → j2Update M P ord sch A = .ok c' → EachCell M fun k cell =>
          (stateOf M c' cell).Ok ∧ (stateOf M c cell).acc ≤ (stateOf M c' cell).acc ∧
          (stateOf M c' cell).acc - (stateOf M c cell).acc =
            √(2 / 3) * nrm ((stateOf M c' cell).ep - (stateOf M c cell).ep) ∧
          0 ≤ dot ((matOf M P A k cell).over (strainOf M P A k cell) (stateOf M c' cell))
            ((stateOf M c' cell).ep - (stateOf M c cell).ep) := by
    rintro c hok A ord sch c' rfl hA hm ho hs hr k hk cell hcell
    obtain ⟨c'', e, -, h1, -⟩ := C63_update hM hB hJ hc hA hm hok ho hs
    rw [hr] at e
    cases e
    exact returned_facts (hm k hk cell hcell) (hok k hk cell hcell) (h1 k hk cell hcell)
  have main : (EachCell M fun _ cell => (stateOf M c cell).Ok ∧ (stateOf M c0 cell).acc ≤ (stateOf M c cell).acc) := by
    induction h with
    | start => exact fun k hk cell hcell => ⟨h0 k hk cell hcell, le_rfl⟩
    | step _ hA hm ho hs hr ih =>
      intro k hk cell hcell
      have := key (fun k hk cell hcell => (ih k hk cell hcell).1) _ _ _ _ rfl hA hm ho hs hr k hk cell hcell
      exact ⟨this.1, (ih k hk cell hcell).2.trans this.2.1⟩
  intro k hk cell hcell
  refine ⟨(main k hk cell hcell).1, (main k hk cell hcell).2, ?_⟩
  intro A ord sch c' hcp hA hm ho hs hr k' hk' cell' hcell'
  exact (key (fun k hk cell hcell => (main k hk cell hcell).1) A ord sch c' hcp hA hm ho hs hr k' hk' cell' hcell').2

end Plato.J2
