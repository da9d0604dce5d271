import Verif.Thermal.Static

/-!
# The conduction form

C57: work of the thermostatic residual, conduction matrix, balance of heat.
-/

namespace Plato.Thermal
open Finset Plato Plato.Mech

/-- If the work of a vector function is affine in its argument, the matrix of its derivative is the matrix
of the linear part. -/
theorem matrix_of_affine {n : Nat} {v : (Fin n → ℝ) → List ℝ} {D : Nat → Nat → ℝ} {u : Fin n → ℝ}
    (hD : ∀ q, q < n → HasFDerivAt (fun y => at0 (v y) q) (lin n fun j => D q j) u) {w : Nat → ℝ}
    {B : (Nat → ℝ) → ℝ} {b0 : ℝ} (hlin : ∀ a b p q, B (fun l => a * p l + b * q l) = a * B p + b * B q)
    (hcongr : ∀ p q, (∀ l, l < n → p l = q l) → B p = B q)
    (hF : ∀ y, ∑ q ∈ range n, at0 (v y) q * w q = B (at0 (List.ofFn y)) + b0) (p : Nat → ℝ) :
    ∑ q ∈ range n, w q * ∑ j ∈ range n, D q j * p j = B p := by
  let p' : Fin n → ℝ := fun i => p i
  have d1 : HasFDerivAt (fun y => ∑ q ∈ range n, at0 (v y) q * w q)
      (∑ q ∈ range n, w q • lin n fun j => D q j) u :=
    HasFDerivAt.fun_sum fun q hq => (hD q (mem_range.1 hq)).mul_const (w q)
  have l1 := (d1.hasLineDerivAt p')
  have l2 : HasLineDerivAt ℝ (fun y => ∑ q ∈ range n, at0 (v y) q * w q) (B p) u p' := by
    unfold HasLineDerivAt
    have e : (fun t : ℝ => ∑ q ∈ range n, at0 (v (u + t • p')) q * w q) =
        fun t => (1 * B (at0 (List.ofFn u)) + t * B p) + b0 := by
      funext t
      rw [hF, ← hlin]
      congr 1
      refine hcongr _ _ fun q hq => ?_
      rw [at0_ofFn, at0_ofFn, map_add, map_smul, one_mul, smul_eq_mul]
      congr 2
      unfold coord
      rw [dif_pos hq]
      rfl
    rw [e]
    have := ((hasDerivAt_id (0 : ℝ)).mul_const (B p)).const_add
      (1 * B (at0 (List.ofFn u))) |>.add_const b0
    simpa using this
  have := l1.unique l2
  rw [← this]
  simp only [_root_.sum_apply, _root_.smul_apply, lin_apply, smul_eq_mul]
  refine sum_congr rfl fun q _ => ?_
  rw [sum_range]

/-! ## Forms -/

/-- Conduction in a cell: volume times penalty times gradient · conductivity · gradient. -/
noncomputable def cellConduction (P : Thermal ℝ) (K : Nat → Nat → ℝ) (Z : Nat → ℝ) (X : Nat → Nat → ℝ)
    (U W : Nat → ℝ) : ℝ :=
  P.volForm abs X * P.pen (meanDensity (P.d + 1) Z) *
    ∑ i ∈ range P.d, ∑ j ∈ range P.d, P.gradT W X i * K i j * P.gradT U X j

/-- Heat supplied to a cell by a body load, weighted with the virtual temperature `W`: sum over the
integration points of weight, determinant, intensity, interpolated virtual temperature and mean density. -/
noncomputable def cellSource (L : BodyLoad ℝ) (d c gc : Nat) (Z W : Nat → ℝ) : ℝ :=
  ∑ p ∈ range L.numPoints, at0 L.weights p * at0 L.det gc * at0 L.values (c * L.numPoints + p) *
    (∑ a ∈ range (d + 1), L.basis.e a p * W a) * meanDensity (d + 1) Z

theorem condRow_work (P : Thermal ℝ) (K : Nat → Nat → ℝ) (U Z : Nat → ℝ) (X : Nat → Nat → ℝ) (W : Nat → ℝ) :
    ∑ l ∈ range (P.d + 1), P.condRow abs K U Z X l * W l = cellConduction P K Z X U W := by
  unfold Thermal.condRow
  simp only [Finset.sum_apply, sum_mul]
  rw [sum_comm, sum_congr rfl fun n hn => single_pairing (p := n * 1 + 0) (by rw [Nat.mul_one]; exact mem_range.1 hn) _ W]
  unfold cellConduction Thermal.fluxForm fourier
  simp only [Nat.mul_one, Nat.add_zero]
  have e : ∀ n, -1 * (∑ k ∈ range P.d, -(∑ j ∈ range P.d, K k j * P.gradT U X j) *
      P.pen (meanDensity (P.d + 1) Z) * gradForm P.d X n k) * P.volForm abs X * W n =
      P.volForm abs X * P.pen (meanDensity (P.d + 1) Z) *
        ∑ k ∈ range P.d, (∑ j ∈ range P.d, K k j * P.gradT U X j) * (W n * gradForm P.d X n k) := by
    intro n
    rw [mul_sum, mul_sum, sum_mul, sum_mul]
    refine sum_congr rfl fun k _ => ?_
    ring
  simp only [e]
  rw [← mul_sum, sum_comm]
  congr 1
  refine sum_congr rfl fun k _ => ?_
  rw [← mul_sum]
  show _ * P.gradT W X k = _
  rw [sum_mul]
  exact sum_congr rfl fun j _ => by ring

theorem loadRow_work (P : Thermal ℝ) (hL : ∀ L ∈ P.bodyLoads, L.dof < 1) (c gc : Nat) (Z W : Nat → ℝ) :
    ∑ l ∈ range (P.d + 1), P.loadRow c gc Z l * W l =
      -(P.bodyLoads.map fun L => cellSource L P.d c gc Z W).sum := by
  unfold Thermal.loadRow
  revert hL
  induction P.bodyLoads with
  | nil => intro _; simp
  | cons L Ls ih =>
    intro hL
    have hl : L.dof = 0 := by have := hL L (List.mem_cons_self ..); omega
    simp only [List.map_cons, List.sum_cons, Pi.add_apply, add_mul, sum_add_distrib]
    rw [ih fun M hM => hL M (List.mem_cons_of_mem _ hM), neg_add]
    congr 1
    unfold BodyLoad.row cellSource
    simp only [Finset.sum_apply, sum_mul]
    rw [sum_comm, ← sum_neg_distrib]
    refine sum_congr rfl fun p _ => ?_
    rw [sum_comm, sum_congr rfl fun a ha => single_pairing (p := a * 1 + L.dof)
      (by rw [Nat.mul_one, hl]; exact mem_range.1 ha) _ W, mul_sum, sum_mul, ← sum_neg_distrib]
    refine sum_congr rfl fun a _ => ?_
    rw [hl, Nat.mul_one, Nat.add_zero]
    ring

/-- A nodal field on a cell. -/
def onCell (M : FeModel) (u : Nat → ℝ) (cell n : Nat) : ℝ := u (cellNode M.npc M.c2n cell n)

/-- Conduction in the mesh: temperature `u`, virtual temperature `w`, conductivity at the temperature of the
integration point. -/
noncomputable def conduction (M : FeModel) (P : Nat → Thermal ℝ) (z x : List ℝ) (u w : Nat → ℝ) : ℝ :=
  ∑ k ∈ range M.domains.length, ∑ c ∈ range (M.size (M.part k)),
    cellConduction (P k) ((P k).law.cond ((P k).point (onCell M u (gcell (M.part k) c))))
      (M.cellZ z (gcell (M.part k) c)) (M.cellX x (gcell (M.part k) c))
      (onCell M u (gcell (M.part k) c))
      (onCell M w (gcell (M.part k) c))

/-- Heat supplied by the body loads of the mesh, weighted with a virtual temperature. -/
noncomputable def source (M : FeModel) (P : Nat → Thermal ℝ) (z : List ℝ) (w : Nat → ℝ) : ℝ :=
  ∑ k ∈ range M.domains.length, ∑ c ∈ range (M.size (M.part k)),
    ((P k).bodyLoads.map fun L => cellSource L (P k).d c (gcell (M.part k) c) (M.cellZ z (gcell (M.part k) c))
      (onCell M w (gcell (M.part k) c))).sum

/-! ## Gradients of fields -/

/-- **C57**: in a cell that is not degenerate, the gradient of a field that is affine in the coordinates is
its slope. -/
theorem C57_gradT_affine {P : Thermal ℝ} (hd : P.d = 1 ∨ P.d = 2 ∨ P.d = 3) {X : Nat → Nat → ℝ}
    (hdet : detForm P.d X ≠ 0) {U b : Nat → ℝ} {a : ℝ}
    (hU : ∀ n, n < P.d + 1 → U n = a + ∑ j ∈ range P.d, b j * X n j) {k : Nat} (hk : k < P.d) :
    P.gradT U X k = b k := by
  have hR := gradForm_reproduces hd X (by rwa [← detForm_eq hd])
  have := hR a (fun j => b j) ⟨k, hk⟩
  rw [← show _ = b k from this, Thermal.gradT, scalarField, sum_range]
  refine sum_congr rfl fun n _ => ?_
  rw [hU n n.2, sum_range]
  rfl

theorem gradT_const {P : Thermal ℝ} (hd : P.d = 1 ∨ P.d = 2 ∨ P.d = 3) {X : Nat → Nat → ℝ}
    (hdet : detForm P.d X ≠ 0) {U : Nat → ℝ} {a : ℝ} (hU : ∀ n, n < P.d + 1 → U n = a) {k : Nat} (hk : k < P.d) :
    P.gradT U X k = 0 :=
  C57_gradT_affine hd hdet (a := a) (b := fun _ => 0) (fun n hn => by simp [hU n hn]) hk

theorem gradT_lin (P : Thermal ℝ) (a b : ℝ) (U V : Nat → ℝ) (X : Nat → Nat → ℝ) (k : Nat) :
    P.gradT (fun l => a * U l + b * V l) X k = a * P.gradT U X k + b * P.gradT V X k := by
  unfold Thermal.gradT scalarField
  rw [mul_sum, mul_sum, ← sum_add_distrib]
  exact sum_congr rfl fun n _ => by ring

/-! ## The residual -/

section
variable {M : FeModel} (hM : M.Ok) {P : Nat → Thermal ℝ} (h : ThermOk M P)
  {eR : Nat → Nat → List Nat} (heR : ∀ k j, IsSchedule (eR k j) (M.size (M.part k)))
  {u z x : List ℝ} (hu : u.length = M.nn * M.ndof) (hz : z.length = M.nn) (hx : x.length = M.nn * M.dim)
  {sch : Nat → Nat → List Nat} (hs : SchedOk M sch (M.npc * M.ndof))
include hM h heR hu hz hx hs

/-- **C57**, virtual work: on every virtual temperature the residual does the work of conduction less the
heat supplied. -/
theorem C57_work :
    (M.value (thermostatic abs M P eR) sch u z x).Sat fun v => v.length = M.nn * M.ndof ∧ ∀ w : Nat → ℝ,
      ∑ q ∈ range (M.nn * M.ndof), at0 v q * w q = conduction M P z x (at0 u) w - source M P z w := by
  refine (RowEv.work hM (thermostatic_rowR h heR) hu hz hx hs).mono ?_
  rintro v ⟨hl, hw⟩
  refine ⟨hl, fun w => ?_⟩
  rw [hw w]
  unfold conduction source
  rw [← sum_sub_distrib]
  refine sum_congr rfl fun k hk => ?_
  rw [← sum_sub_distrib]
  refine sum_congr rfl fun c hc => ?_
  have hk' := mem_range.1 hk
  have hdk := h.d k hk'
  have hnd : M.npc * M.ndof = (P k).d + 1 := by rw [h.ndof, Nat.mul_one, FeModel.npc, hdk]
  have hU : M.cellU (u) (gcell (M.part k) c) = onCell M (at0 u) (gcell (M.part k) c) := by
    funext l
    unfold FeModel.cellU onCell
    rw [h.ndof, cellDof_one]
  unfold meshRow
  rw [hnd, hU, h.ndof]
  simp only [cellDof_one]
  have hL : ∀ L ∈ (P k).bodyLoads, L.dof < 1 := by
    have hp : M.part k = some (M.domains[k]?.getD []) := if_pos hk'
    exact fun L hL => (h.loads k _ hp L hL).dof
  have e1 := condRow_work (P k) ((P k).law.cond ((P k).point (onCell M (at0 u) (gcell (M.part k) c))))
    (onCell M (at0 u) (gcell (M.part k) c)) (M.cellZ z (gcell (M.part k) c)) (M.cellX x (gcell (M.part k) c))
    (onCell M w (gcell (M.part k) c))
  have e2 := loadRow_work (P k) hL c (gcell (M.part k) c) (M.cellZ z (gcell (M.part k) c))
    (onCell M w (gcell (M.part k) c))
  rw [sub_eq_add_neg, ← e1, ← e2, ← sum_add_distrib]
  exact sum_congr rfl fun l _ => by rw [← add_mul]; rfl

end

/-! ## Constants -/

theorem cellConduction_const {P : Thermal ℝ} (hd : P.d = 1 ∨ P.d = 2 ∨ P.d = 3) {K : Nat → Nat → ℝ}
    {X : Nat → Nat → ℝ} (hdet : detForm P.d X ≠ 0) {U W Z : Nat → ℝ} {a : ℝ}
    (hW : (∀ n, n < P.d + 1 → U n = a) ∨ ∀ n, n < P.d + 1 → W n = a) : cellConduction P K Z X U W = 0 := by
  unfold cellConduction
  rw [sum_eq_zero, mul_zero]
  intro i hi
  refine sum_eq_zero fun j hj => ?_
  rcases hW with hW | hW
  · rw [gradT_const hd hdet hW (mem_range.1 hj), mul_zero]
  · rw [gradT_const hd hdet hW (mem_range.1 hi), zero_mul, zero_mul]

section
variable {M : FeModel} (hM : M.Ok) {P : Nat → Thermal ℝ} (h : ThermOk M P)
  {z x : List ℝ} (hdet : ∀ c, c < M.nc → detForm M.dim (M.cellX x c) ≠ 0)
include hM h hdet

theorem conduction_const {u w : Nat → ℝ} {a : ℝ}
    (hc : (∀ n, n < M.nn → u n = a) ∨ ∀ n, n < M.nn → w n = a) : conduction M P z x u w = 0 := by
  unfold conduction
  refine sum_eq_zero fun k hk => sum_eq_zero fun c hcc => ?_
  have hdk := h.d k (mem_range.1 hk)
  have hgc := (hM.domOk k).1 c (mem_range.1 hcc)
  have hn : ∀ n, n < (P k).d + 1 → cellNode M.npc M.c2n (gcell (M.part k) c) n < M.nn := fun n hn =>
    hM.mesh.node_lt hgc (by rw [FeModel.npc, ← hdk]; exact hn)
  refine cellConduction_const (by rw [hdk]; exact h.dim) (by rw [hdk]; exact hdet _ hgc) (a := a) ?_
  rcases hc with hc | hc
  · exact .inl fun n hh => hc _ (hn n hh)
  · exact .inr fun n hh => hc _ (hn n hh)

variable {eR : Nat → Nat → List Nat} (heR : ∀ k j, IsSchedule (eR k j) (M.size (M.part k)))
  {u : List ℝ} (hu : u.length = M.nn * M.ndof) (hz : z.length = M.nn) (hx : x.length = M.nn * M.dim)
  {sch : Nat → Nat → List Nat} (hs : SchedOk M sch (M.npc * M.ndof))
include heR hu hz hx hs

/-- **C57**, balance of heat: for every state and every conductivity, also one that depends on temperature,
the entries of the residual add up to minus the heat supplied. -/
theorem C57_balance :
    (M.value (thermostatic abs M P eR) sch u z x).Sat fun v =>
      ∑ q ∈ range M.nn, at0 v q = -source M P z fun _ => 1 := by
  refine (C57_work hM h heR hu hz hx hs).mono ?_
  rintro v ⟨-, hw⟩
  have := hw fun _ => 1
  rw [conduction_const hM h hdet (a := 1) (.inr fun _ _ => rfl), zero_sub, h.ndof, Nat.mul_one] at this
  simpa using this

/-- **C57**: a uniform temperature conducts no heat; the residual is that of the body loads. -/
theorem C57_uniform {a : ℝ} (ha : ∀ n, n < M.nn → at0 u n = a) :
    (M.value (thermostatic abs M P eR) sch u z x).Sat fun v =>
      ∀ w : Nat → ℝ, ∑ q ∈ range M.nn, at0 v q * w q = -source M P z w := by
  refine (C57_work hM h heR hu hz hx hs).mono ?_
  rintro v ⟨-, hw⟩ w
  have := hw w
  rw [conduction_const hM h hdet (a := a) (.inl ha), zero_sub, h.ndof, Nat.mul_one] at this
  exact this

end

/-! ## The conduction matrix of a linear material -/

theorem cond_linear {F : FluxLaw ℝ} (hF : F.nonlinear = false) (T : ℝ) : F.cond T = F.const := by
  funext i j
  simp [FluxLaw.cond, hF]

section
variable {M : FeModel} {P : Nat → Thermal ℝ} (hlin : ∀ k, k < M.domains.length → (P k).law.nonlinear = false)
  {z x : List ℝ}
include hlin

theorem conduction_lin (a b : ℝ) (u v w : Nat → ℝ) :
    conduction M P z x (fun l => a * u l + b * v l) w =
      a * conduction M P z x u w + b * conduction M P z x v w := by
  unfold conduction cellConduction
  simp only [mul_sum, ← sum_add_distrib]
  refine sum_congr rfl fun k hk => sum_congr rfl fun c _ => sum_congr rfl fun i _ => sum_congr rfl fun j _ => ?_
  simp only [cond_linear (hlin k (mem_range.1 hk))]
  rw [show onCell M (fun l => a * u l + b * v l) (gcell (M.part k) c) = fun l =>
    a * onCell M u (gcell (M.part k) c) l + b * onCell M v (gcell (M.part k) c) l from rfl, gradT_lin]
  ring

theorem conduction_symm (hsym : ∀ k i j, k < M.domains.length → i < (P k).d → j < (P k).d →
      (P k).law.const i j = (P k).law.const j i) (u w : Nat → ℝ) :
    conduction M P z x u w = conduction M P z x w u := by
  unfold conduction cellConduction
  refine sum_congr rfl fun k hk => sum_congr rfl fun c _ => ?_
  simp only [cond_linear (hlin k (mem_range.1 hk))]
  congr 1
  rw [sum_comm]
  refine sum_congr rfl fun j hj => sum_congr rfl fun i hi => ?_
  rw [hsym k i j (mem_range.1 hk) (mem_range.1 hi) (mem_range.1 hj)]
  ring

theorem conduction_nonneg (hw : ∀ k, k < M.domains.length → 0 ≤ (P k).cubWeight)
    (hpen : ∀ k c, k < M.domains.length → c < M.size (M.part k) →
      0 ≤ (P k).pen (meanDensity ((P k).d + 1) (M.cellZ z (gcell (M.part k) c))))
    (hpos : ∀ k (g : Nat → ℝ), k < M.domains.length →
      0 ≤ ∑ i ∈ range (P k).d, ∑ j ∈ range (P k).d, g i * (P k).law.const i j * g j) (u : Nat → ℝ) :
    0 ≤ conduction M P z x u u := by
  unfold conduction cellConduction
  refine sum_nonneg fun k hk => sum_nonneg fun c hc => ?_
  have hk' := mem_range.1 hk
  simp only [cond_linear (hlin k hk')]
  exact mul_nonneg (mul_nonneg (mul_nonneg (abs_nonneg _) (hw k hk')) (hpen k c hk' (mem_range.1 hc))) (hpos k _ hk')

end

theorem conduction_congr {M : FeModel} (hM : M.Ok) {P : Nat → Thermal ℝ} (h : ThermOk M P) {z x : List ℝ}
    {u u' w : Nat → ℝ} (hu : ∀ n, n < M.nn → u n = u' n) : conduction M P z x u w = conduction M P z x u' w := by
  unfold conduction
  refine sum_congr rfl fun k hk => sum_congr rfl fun c hc => ?_
  have hdk := h.d k (mem_range.1 hk)
  have hgc := (hM.domOk k).1 c (mem_range.1 hc)
  have e : ∀ n, n < (P k).d + 1 → onCell M u (gcell (M.part k) c) n = onCell M u' (gcell (M.part k) c) n :=
    fun n hn => hu _ (hM.mesh.node_lt hgc (by rw [FeModel.npc, ← hdk]; exact hn))
  unfold cellConduction Thermal.point
  rw [interp_congr e]
  congr 1
  refine sum_congr rfl fun i _ => sum_congr rfl fun j _ => ?_
  unfold Thermal.gradT
  rw [scalarField_congr e fun _ _ => rfl]

section
variable {M : FeModel} (hM : M.Ok) {P : Nat → Thermal ℝ} {penF : Nat → Fad → Fad} (h : ThermOk M P)
  (hlin : ∀ k, k < M.domains.length → (P k).law.nonlinear = false)
  {eF : Nat → Nat → List Nat} (heF : ∀ k j, IsSchedule (eF k j) (M.size (M.part k)))
  {o : List Nat} (ho : IsSchedule o M.nn) {sch : Nat → Nat → List Nat}
  {u z x : List ℝ} (hu : u.length = M.nn * M.ndof) (hz : z.length = M.nn)
  (hx : x.length = M.nn * M.dim) (hgood : ∀ c, c < M.nc → thermGood M P penF (M.cellZ z c) (M.cellX x c))
  (hs : SchedOk M sch (M.npc * M.ndof * (M.npc * M.ndof)))
include hM h hlin heF ho hu hz hx hgood hs

/-- **C57**: the matrix `gradient_u` returns for a conductivity that does not depend on temperature is the
matrix of the conduction form. -/
theorem C57_matrix :
    (M.gradientU (thermostatic Fad.fabs M (fun k => (P k).lift (penF k)) eF) o sch u z x).Sat fun J =>
      J.WF M.nn M.nn ∧ ∀ v w : Nat → ℝ,
        ∑ q ∈ range M.nn, w q * ∑ j ∈ range M.nn, J.dense q j * v j = conduction M P z x v w := by
  obtain ⟨u', rfl⟩ : ∃ u' : Fin (M.nn * M.ndof) → ℝ, u = List.ofFn u' :=
    ⟨fun i => at0 u i, by
      refine List.ext_getElem (by rw [List.length_ofFn, hu]) fun i h1 h2 => ?_
      rw [List.getElem_ofFn, at0_eq h1]⟩
  let eR : Nat → Nat → List Nat := fun k _ => List.range (M.size (M.part k))
  have heR : ∀ k j, IsSchedule (eR k j) (M.size (M.part k)) := fun k j => IsSchedule.range _
  let sR : Nat → Nat → List Nat := fun k j =>
    if j = 3 then List.range (M.size (M.part k) * (M.npc * M.ndof)) else List.range (M.size (M.part k))
  have hsR : SchedOk M sR (M.npc * M.ndof) :=
    ⟨fun k j _ hj => by rw [show sR k j = List.range (M.size (M.part k)) from if_neg (by omega)]; exact IsSchedule.range _,
      fun k _ => by
        rw [show sR k 3 = List.range (M.size (M.part k) * (M.npc * M.ndof)) from if_pos rfl]
        exact IsSchedule.range _⟩
  obtain ⟨v, J, hv, hJ, hwf, hD⟩ := C57_gradient_u h hM heR heF ho hz hx hgood hs
    (schR := fun _ => sR) (fun _ => hsR)
  refine ⟨J, hJ, hwf, fun p w => ?_⟩
  have := matrix_of_affine hD (w := w) (B := fun p => conduction M P z x p w) (b0 := -source M P z w)
    (fun a b p q => conduction_lin hlin a b p q w)
    (fun p q hpq => conduction_congr hM h fun n hn => hpq n (by rw [h.ndof]; omega)) (fun y => by
      obtain ⟨v1, e1, -, e2⟩ := C57_work hM h heR (List.length_ofFn (f := y)) hz hx hsR
      rw [(hv y).1] at e1
      cases e1
      rw [e2 w, sub_eq_add_neg]) p
  rw [← this, h.ndof, Nat.mul_one]

/-- **C57**: entry by entry. -/
theorem C57_entry :
    (M.gradientU (thermostatic Fad.fabs M (fun k => (P k).lift (penF k)) eF) o sch u z x).Sat fun J =>
      ∀ i j, i < M.nn → j < M.nn → J.dense i j = conduction M P z x (Pi.single j 1) (Pi.single i 1) := by
  refine (C57_matrix hM h hlin heF ho hu hz hx hgood hs).mono ?_
  rintro J ⟨-, hJ⟩ i j hi hj
  rw [← hJ, sum_single_left hi, sum_single_right hj]

/-- **C57**: with a symmetric conductivity the matrix is symmetric. -/
theorem C57_symmetric (hsym : ∀ k i j, k < M.domains.length → i < (P k).d → j < (P k).d →
      (P k).law.const i j = (P k).law.const j i) :
    (M.gradientU (thermostatic Fad.fabs M (fun k => (P k).lift (penF k)) eF) o sch u z x).Sat fun J =>
      ∀ i j, i < M.nn → j < M.nn → J.dense i j = J.dense j i := by
  refine (C57_entry hM h hlin heF ho hu hz hx hgood hs).mono ?_
  intro J hJ i j hi hj
  rw [hJ i j hi hj, hJ j i hj hi, conduction_symm hlin hsym]

/-- **C57**: with a positive semidefinite conductivity and a penalty that is not negative the matrix is
positive semidefinite. -/
theorem C57_semidefinite (hw : ∀ k, k < M.domains.length → 0 ≤ (P k).cubWeight)
    (hpen : ∀ k c, k < M.domains.length → c < M.size (M.part k) →
      0 ≤ (P k).pen (meanDensity ((P k).d + 1) (M.cellZ z (gcell (M.part k) c))))
    (hpos : ∀ k (g : Nat → ℝ), k < M.domains.length →
      0 ≤ ∑ i ∈ range (P k).d, ∑ j ∈ range (P k).d, g i * (P k).law.const i j * g j) :
    (M.gradientU (thermostatic Fad.fabs M (fun k => (P k).lift (penF k)) eF) o sch u z x).Sat fun J =>
      ∀ v : Nat → ℝ, 0 ≤ ∑ q ∈ range M.nn, v q * ∑ j ∈ range M.nn, J.dense q j * v j := by
  refine (C57_matrix hM h hlin heF ho hu hz hx hgood hs).mono ?_
  rintro J ⟨-, hJ⟩ v
  rw [hJ v v]
  exact conduction_nonneg hlin hw hpen hpos v

/-- **C57**: the rows and the columns of the matrix add up to zero. -/
theorem C57_rows_columns :
    (M.gradientU (thermostatic Fad.fabs M (fun k => (P k).lift (penF k)) eF) o sch u z x).Sat fun J =>
      ∀ i, i < M.nn → ∑ j ∈ range M.nn, J.dense i j = 0 ∧ ∑ j ∈ range M.nn, J.dense j i = 0 := by
  refine (C57_matrix hM h hlin heF ho hu hz hx hgood hs).mono ?_
  rintro J ⟨-, hJ⟩ i hi
  have hdet := fun c hc => (hgood c hc).1
  constructor
  · have := hJ (fun _ => 1) (Pi.single i 1)
    rw [conduction_const hM h hdet (a := 1) (.inl fun _ _ => rfl), sum_single_left hi] at this
    simpa using this
  · have := hJ (Pi.single i 1) (fun _ => 1)
    rw [conduction_const hM h hdet (a := 1) (.inr fun _ _ => rfl)] at this
    simp only [one_mul, sum_single_right hi] at this
    exact this

end

/-! ## Input -/

section Input
open Plato.Material

theorem bind_ok' {α β : Type} {m : Res α} {f : α → Res β} {b : β} (h : (m >>= f) = .ok b) :
    ∃ a, m = .ok a ∧ f a = .ok b := by
  cases m with
  | ok a => exact ⟨a, rfl, h⟩
  | err e => cases h
  | ub => cases h

theorem tensorTable_symm {d : Nat} {req : Bool} {pre : String} {p : Params} {t : Nat → Nat → ℝ}
    (h : tensorTable d req pre p = .ok t) (i j : Nat) : t i j = t j i := by
  obtain ⟨c, ht⟩ : ∃ c, (fun i j => if d ≤ i ∨ d ≤ j then 0
      else if i = 0 ∧ j = 0 then c
      else if i = 1 ∧ j = 1 then p.getD (pre ++ "22") c
      else if i = 2 ∧ j = 2 then p.getD (pre ++ "33") c
      else if (i = 0 ∧ j = 1) ∨ (i = 1 ∧ j = 0) then p.getD (pre ++ "12") 0
      else if (i = 0 ∧ j = 2) ∨ (i = 2 ∧ j = 0) then p.getD (pre ++ "13") 0
      else p.getD (pre ++ "23") 0) = t := by
    unfold tensorTable at h
    cases req with
    | true =>
      obtain ⟨c, -, hc⟩ := bind_ok' h
      exact ⟨c, Res.ok.inj hc⟩
    | false =>
      obtain ⟨c, -, hc⟩ := bind_ok' h
      exact ⟨c, Res.ok.inj hc⟩
  rw [← ht]
  dsimp only
  by_cases hi : d ≤ i
  · simp [hi]
  by_cases hj : d ≤ j
  · simp [hj]
  simp only [hi, hj, or_self, if_false, and_comm (a := j = 0), and_comm (a := j = 1), and_comm (a := j = 2)]
  by_cases a0 : i = 0 <;> by_cases a1 : i = 1 <;> by_cases a2 : i = 2 <;> by_cases b0 : j = 0 <;>
    by_cases b1 : j = 1 <;> by_cases b2 : j = 2 <;> simp_all

theorem diagTable_symm (d : Nat) (v : ℝ) (i j : Nat) : diagTable d v i j = diagTable d v j i := by
  unfold diagTable
  by_cases h : i = j
  · rw [h]
  · simp [h, Ne.symm h]

/-- **C57**: every conductivity the input can describe is symmetric, at every temperature. -/
theorem C57_input_symmetric {d : Nat} {tempDep : Bool} {inp : PropertyInput} {F : FluxLaw ℝ}
    (h : FluxLaw.ofInput d tempDep inp = .ok F) :
    F.nonlinear = tempDep ∧ ∀ T i j, F.cond T i j = F.cond T j i := by
  unfold FluxLaw.ofInput at h
  cases inp with
  | number v =>
    cases tempDep <;> cases h <;> simp [FluxLaw.cond, diagTable_symm d v]
    all_goals exact fun i j => diagTable_symm d v i j
  | list p =>
    cases tempDep with
    | true =>
      simp only [if_true] at h
      obtain ⟨c0, h0, h⟩ := bind_ok' h
      obtain ⟨c1, h1, h⟩ := bind_ok' h
      obtain ⟨c2, h2, h⟩ := bind_ok' h
      cases h
      refine ⟨rfl, fun T i j => ?_⟩
      simp only [FluxLaw.cond, if_true]
      rw [tensorTable_symm h0 i j, tensorTable_symm h1 i j, tensorTable_symm h2 i j]
    | false =>
      simp only [Bool.false_eq_true, if_false] at h
      obtain ⟨c, h0, h⟩ := bind_ok' h
      cases h
      refine ⟨rfl, fun T i j => ?_⟩
      simp only [FluxLaw.cond, Bool.false_eq_true, if_false]
      exact tensorTable_symm h0 i j
  | missing => cases h

/-- **C57**: a conductivity given as a number is that number times the identity, whether or not the
material is declared temperature dependent, and is positive semidefinite if the number is not negative. -/
theorem C57_input_number {d : Nat} {tempDep : Bool} {v : ℝ} {F : FluxLaw ℝ}
    (h : FluxLaw.ofInput d tempDep (.number v) = .ok F) (T : ℝ) :
    (∀ i j, i < d → j < d → F.cond T i j = if i = j then v else 0) ∧
      ∀ g : Nat → ℝ, ∑ i ∈ range d, ∑ j ∈ range d, g i * F.cond T i j * g j = v * ∑ i ∈ range d, g i ^ 2 := by
  have e : ∀ i j, i < d → j < d → F.cond T i j = if i = j then v else 0 := by
    intro i j hi hj
    unfold FluxLaw.ofInput at h
    cases tempDep <;> cases h <;> simp [FluxLaw.cond, diagTable, hi]
  refine ⟨e, fun g => ?_⟩
  rw [mul_sum]
  refine sum_congr rfl fun i hi => ?_
  rw [sum_eq_single_of_mem i hi]
  · rw [e i i (mem_range.1 hi) (mem_range.1 hi), if_pos rfl]; ring
  · intro j hj hji
    rw [e i j (mem_range.1 hi) (mem_range.1 hj), if_neg (Ne.symm hji)]; ring

end Input

end Plato.Thermal
