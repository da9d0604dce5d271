import Verif.Em.Track
import Verif.Tm.Props
import Verif.Crit.ElasticProps

/-!
# Electromechanics

C67: work of the residual, balance of forces and charges, rigid translations and the ground potential, the
matrix and its symmetry, the scaling of the potential, the sign of the charges.  C68: the energy.
-/

namespace Plato.Em
open Finset Plato Plato.Mech Plato.Thermal Plato.Dyn Plato.Crit
open Plato.Tm (fluxRow fluxRow_work work_single unknown sum_unknown scaleT scaleT_single)

/-! ## Specification -/

/-- Work in a cell: volume, penalty, and the work of the stress on the virtual strain less that of the electric
displacement on the virtual electric field. -/
noncomputable def cellEm (P : Em ℝ) (Z : Nat → ℝ) (X : Nat → Nat → ℝ) (U W : Nat → ℝ) : ℝ :=
  P.volForm abs X * P.pen (meanDensity (P.d + 1) Z) *
    (∑ t ∈ range (numVoigt P.d), P.law.stressOf P.d (P.strainForm U X) (P.fieldForm U X) t * P.strainForm W X t -
      ∑ k ∈ range P.d, P.law.dispOf P.d (P.strainForm U X) (P.fieldForm U X) k * P.fieldForm W X k)

/-- Work in the mesh. -/
noncomputable def emForm (M : FeModel) (P : Nat → Em ℝ) : List ℝ → List ℝ → (Nat → ℝ) → (Nat → ℝ) → ℝ :=
  meshForm M fun k Z X U W => cellEm (P k) Z X U W

/-! ## Forms of a cell -/

section
variable (P : Em ℝ)

theorem solidRow_work (hd : P.d = 1 ∨ P.d = 2 ∨ P.d = 3) (U Z : Nat → ℝ) (X : Nat → Nat → ℝ) (W : Nat → ℝ) :
    ∑ l ∈ range ((P.d + 1) * (P.d + 1)), P.solidRow abs U Z X l * W l = cellEm P Z X U W := by
  have e1 := stressRow_work hd (Nat.le_succ _) (P.volForm abs X) (P.stressForm U Z X) (gradForm P.d X) W
  have e2 := fluxRow_work P.d (P.volForm abs X) (P.dispForm U Z X) (gradForm P.d X) W
  have e : ∀ l, P.solidRow abs U Z X l * W l =
      stressRow P.d (P.d + 1) (P.volForm abs X) (P.stressForm U Z X) (gradForm P.d X) l * W l +
      fluxRow P.d (P.d + 1) P.d (P.volForm abs X) (P.dispForm U Z X) (gradForm P.d X) l * W l := by
    intro l
    rw [← add_mul]
    rfl
  rw [sum_congr rfl fun l _ => e l, sum_add_distrib, e1, e2]
  unfold cellEm
  rw [mul_sub, sub_eq_add_neg]
  congr 1
  · rw [mul_sum, mul_sum]
    refine sum_congr rfl fun t _ => ?_
    unfold Em.stressForm Em.solidStress
    rw [show voigtStrain P.d (fun n i => W (n * (P.d + 1) + i)) (gradForm P.d X) t = P.strainForm W X t from rfl]
    ring
  · rw [mul_sum, mul_sum, ← sum_neg_distrib]
    refine sum_congr rfl fun k _ => ?_
    unfold Em.dispForm Em.solidDisp
    rw [show P.fieldForm W X k = -scalarField P.d (fun n => W (n * (P.d + 1) + P.d)) (gradForm P.d X) k from rfl]
    ring

theorem energyForm_eq (U Z : Nat → ℝ) (X : Nat → Nat → ℝ) : P.energyForm abs U Z X = cellEm P Z X U U := by
  unfold Em.energyForm cellEm Em.stressForm Em.dispForm Em.solidStress Em.solidDisp
  rw [mul_sub, one_mul, neg_one_mul, neg_mul, ← sub_eq_add_neg, sum_mul, sum_mul, mul_sum, mul_sum]
  congr 1 <;> exact sum_congr rfl fun _ _ => by ring

theorem strain_lin (a b : ℝ) (U V : Nat → ℝ) (X : Nat → Nat → ℝ) (t : Nat) :
    P.strainForm (fun l => a * U l + b * V l) X t = a * P.strainForm U X t + b * P.strainForm V X t := by
  have hg : ∀ i k, fieldGrad P.d (fun n i => a * U (n * (P.d + 1) + i) + b * V (n * (P.d + 1) + i)) (gradForm P.d X) i k =
      a * fieldGrad P.d (fun n i => U (n * (P.d + 1) + i)) (gradForm P.d X) i k +
      b * fieldGrad P.d (fun n i => V (n * (P.d + 1) + i)) (gradForm P.d X) i k := by
    intro i k
    unfold fieldGrad
    rw [mul_sum, mul_sum, ← sum_add_distrib]
    exact sum_congr rfl fun n _ => by ring
  unfold Em.strainForm voigtStrain
  rw [hg, hg, hg]
  split_ifs
  · rfl
  · ring

theorem field_lin (a b : ℝ) (U V : Nat → ℝ) (X : Nat → Nat → ℝ) (k : Nat) :
    P.fieldForm (fun l => a * U l + b * V l) X k = a * P.fieldForm U X k + b * P.fieldForm V X k := by
  unfold Em.fieldForm scalarField
  rw [mul_neg, mul_neg, ← neg_add, mul_sum, mul_sum, ← sum_add_distrib]
  exact congrArg _ (sum_congr rfl fun n _ => by ring)

theorem stressOf_lin (L : EmLaw ℝ) (d : Nat) (a b : ℝ) (ε ε' E E' : Nat → ℝ) (t : Nat) :
    L.stressOf d (fun s => a * ε s + b * ε' s) (fun j => a * E j + b * E' j) t =
      a * L.stressOf d ε E t + b * L.stressOf d ε' E' t := by
  unfold EmLaw.stressOf
  rw [mul_sub, mul_sub, mul_sum, mul_sum, mul_sum, mul_sum,
    show ∀ p q r s : ℝ, p - q + (r - s) = p + r - (q + s) from fun _ _ _ _ => by ring,
    ← sum_add_distrib, ← sum_add_distrib]
  congr 1 <;> exact sum_congr rfl fun _ _ => by ring

theorem dispOf_lin (L : EmLaw ℝ) (d : Nat) (a b : ℝ) (ε ε' E E' : Nat → ℝ) (t : Nat) :
    L.dispOf d (fun s => a * ε s + b * ε' s) (fun j => a * E j + b * E' j) t =
      a * L.dispOf d ε E t + b * L.dispOf d ε' E' t := by
  unfold EmLaw.dispOf
  rw [mul_add, mul_add, mul_sum, mul_sum, mul_sum, mul_sum, add_add_add_comm, ← sum_add_distrib, ← sum_add_distrib]
  congr 1 <;> exact sum_congr rfl fun _ _ => by ring

theorem cellEm_lin (Z : Nat → ℝ) (X : Nat → Nat → ℝ) (a b : ℝ) (U V W : Nat → ℝ) :
    cellEm P Z X (fun l => a * U l + b * V l) W = a * cellEm P Z X U W + b * cellEm P Z X V W := by
  unfold cellEm
  have eS : P.strainForm (fun l => a * U l + b * V l) X = fun t => a * P.strainForm U X t + b * P.strainForm V X t :=
    funext fun t => strain_lin P a b U V X t
  have eF : P.fieldForm (fun l => a * U l + b * V l) X = fun t => a * P.fieldForm U X t + b * P.fieldForm V X t :=
    funext fun t => field_lin P a b U V X t
  rw [eS, eF]
  simp only [stressOf_lin, dispOf_lin, add_mul, sum_add_distrib, mul_assoc, ← mul_sum]
  ring

theorem cellEm_lin_right (Z : Nat → ℝ) (X : Nat → Nat → ℝ) (a b : ℝ) (U V W : Nat → ℝ) :
    cellEm P Z X W (fun l => a * U l + b * V l) = a * cellEm P Z X W U + b * cellEm P Z X W V := by
  unfold cellEm
  simp only [strain_lin, field_lin, mul_add, sum_add_distrib, mul_left_comm _ a, mul_left_comm _ b, ← mul_sum]
  ring

variable {P}

/-- With symmetric stiffness and permittivity the form of the cell is symmetric, whatever the coupling. -/
theorem cellEm_symm (hC : ∀ t s, t < numVoigt P.d → s < numVoigt P.d → P.law.stiff t s = P.law.stiff s t)
    (hp : ∀ i j, i < P.d → j < P.d → P.law.perm i j = P.law.perm j i) (Z : Nat → ℝ) (X : Nat → Nat → ℝ)
    (U W : Nat → ℝ) : cellEm P Z X U W = cellEm P Z X W U := by
  unfold cellEm EmLaw.stressOf EmLaw.dispOf
  congr 1
  simp only [sub_mul, add_mul, sum_sub_distrib, sum_add_distrib, sum_mul]
  have h1 : ∑ t ∈ range (numVoigt P.d), ∑ s ∈ range (numVoigt P.d),
        P.strainForm U X s * P.law.stiff t s * P.strainForm W X t =
      ∑ t ∈ range (numVoigt P.d), ∑ s ∈ range (numVoigt P.d),
        P.strainForm W X s * P.law.stiff t s * P.strainForm U X t := by
    rw [sum_comm]
    refine sum_congr rfl fun s hs => sum_congr rfl fun t ht => ?_
    rw [hC t s (mem_range.1 ht) (mem_range.1 hs)]
    ring
  have h2 : ∑ i ∈ range P.d, ∑ j ∈ range P.d,
        P.law.alpha * P.law.alpha * P.fieldForm U X j * P.law.perm i j * P.fieldForm W X i =
      ∑ i ∈ range P.d, ∑ j ∈ range P.d,
        P.law.alpha * P.law.alpha * P.fieldForm W X j * P.law.perm i j * P.fieldForm U X i := by
    rw [sum_comm]
    refine sum_congr rfl fun s hs => sum_congr rfl fun t ht => ?_
    rw [hp t s (mem_range.1 ht) (mem_range.1 hs)]
    ring
  have h3 : ∀ U W : Nat → ℝ, ∑ t ∈ range (numVoigt P.d), ∑ j ∈ range P.d,
        P.law.alpha * P.fieldForm U X j * P.law.piezo j t * P.strainForm W X t =
      ∑ i ∈ range P.d, ∑ s ∈ range (numVoigt P.d),
        P.law.alpha * P.strainForm W X s * P.law.piezo i s * P.fieldForm U X i := by
    intro U W
    rw [sum_comm]
    exact sum_congr rfl fun s hs => sum_congr rfl fun t ht => by ring
  rw [h1, h2, h3 U W, h3 W U]
  ring

theorem cellEm_congr (hd : P.d = 1 ∨ P.d = 2 ∨ P.d = 3) {Z : Nat → ℝ} {X : Nat → Nat → ℝ} {U U' W W' : Nat → ℝ}
    (hU : ∀ l, l < (P.d + 1) * (P.d + 1) → U l = U' l) (hW : ∀ l, l < (P.d + 1) * (P.d + 1) → W l = W' l) :
    cellEm P Z X U W = cellEm P Z X U' W' := by
  rw [← solidRow_work P hd, ← solidRow_work P hd, solidRow_congr hd hU (fun _ _ => rfl) fun _ _ _ _ => rfl]
  exact sum_congr rfl fun l hl => by rw [hW l (mem_range.1 hl)]

variable (hd : P.d = 1 ∨ P.d = 2 ∨ P.d = 3) {X : Nat → Nat → ℝ} (hdet : detForm P.d X ≠ 0)
include hd hdet

/-- Strain of a displacement that is affine in the coordinates. -/
theorem strain_affine {U b : Nat → ℝ} {A : Nat → Nat → ℝ}
    (hU : ∀ n i, n < P.d + 1 → i < P.d → U (n * (P.d + 1) + i) = b i + ∑ j ∈ range P.d, A i j * X n j) (t : Nat) :
    P.strainForm U X t = if (voigtPair P.d t).1 = (voigtPair P.d t).2 then A (voigtPair P.d t).1 (voigtPair P.d t).1
      else A (voigtPair P.d t).1 (voigtPair P.d t).2 + A (voigtPair P.d t).2 (voigtPair P.d t).1 := by
  have hR := gradForm_reproduces hd X (by rwa [← detForm_eq hd])
  have hf : ∀ i k, i < P.d → k < P.d →
      fieldGrad P.d (fun n i => U (n * (P.d + 1) + i)) (gradForm P.d X) i k = A i k := by
    intro i k hi hk
    have := hR (b i) (fun j => A i j) ⟨k, hk⟩
    rw [← show _ = A i k from this, fieldGrad, sum_range]
    refine sum_congr rfl fun n _ => ?_
    rw [hU n i n.2 hi, sum_range]
    rfl
  obtain ⟨h1, h2⟩ := voigtPair_lt hd (t := t)
  unfold Em.strainForm voigtStrain
  rw [hf _ _ h1 h1, hf _ _ h1 h2, hf _ _ h2 h1]

theorem strain_const {U b : Nat → ℝ} (hU : ∀ n i, n < P.d + 1 → i < P.d → U (n * (P.d + 1) + i) = b i) (t : Nat) :
    P.strainForm U X t = 0 := by
  rw [strain_affine hd hdet (b := b) (A := fun _ _ => 0) (fun n i hn hi => by simp [hU n i hn hi])]
  simp

/-- Electric field of a potential that is affine in the coordinates. -/
theorem field_affine {U : Nat → ℝ} {a : ℝ} {b : Nat → ℝ}
    (hU : ∀ n, n < P.d + 1 → U (n * (P.d + 1) + P.d) = a + ∑ j ∈ range P.d, b j * X n j) {k : Nat} (hk : k < P.d) :
    P.fieldForm U X k = -b k := by
  have hR := gradForm_reproduces hd X (by rwa [← detForm_eq hd])
  have := hR a (fun j => b j) ⟨k, hk⟩
  rw [← show _ = b k from this, Em.fieldForm, scalarField, sum_range]
  refine congrArg _ (sum_congr rfl fun n _ => ?_)
  rw [hU n n.2, sum_range]
  rfl

theorem field_const {U : Nat → ℝ} {a : ℝ} (hU : ∀ n, n < P.d + 1 → U (n * (P.d + 1) + P.d) = a) {k : Nat}
    (hk : k < P.d) : P.fieldForm U X k = 0 := by
  rw [field_affine hd hdet (a := a) (b := fun _ => 0) (fun n hn => by simp [hU n hn]) hk, neg_zero]

end

/-! ## Forms of the mesh -/

section
variable {M : FeModel} {P : Nat → Em ℝ} {z x : List ℝ}

theorem emForm_lin (a b : ℝ) (u v w : Nat → ℝ) :
    emForm M P z x (fun q => a * u q + b * v q) w = a * emForm M P z x u w + b * emForm M P z x v w :=
  meshForm_lin (fun k Z X a b U V W => cellEm_lin (P k) Z X a b U V W) a b u v w

theorem emForm_lin_right (a b : ℝ) (u v w : Nat → ℝ) :
    emForm M P z x w (fun q => a * u q + b * v q) = a * emForm M P z x w u + b * emForm M P z x w v := by
  unfold emForm meshForm
  simp only [mul_sum, ← sum_add_distrib]
  exact sum_congr rfl fun k _ => sum_congr rfl fun c _ => cellEm_lin_right (P k) _ _ a b _ _ _

theorem emForm_symm
    (hC : ∀ k t s, k < M.domains.length → t < numVoigt M.dim → s < numVoigt M.dim →
      (P k).law.stiff t s = (P k).law.stiff s t)
    (hp : ∀ k i j, k < M.domains.length → i < M.dim → j < M.dim → (P k).law.perm i j = (P k).law.perm j i)
    (h : EmOk M P) (u w : Nat → ℝ) : emForm M P z x u w = emForm M P z x w u := by
  unfold emForm meshForm
  refine sum_congr rfl fun k hk => sum_congr rfl fun c _ => ?_
  have hdk := h.d k (mem_range.1 hk)
  exact cellEm_symm (fun t s ht hs => hC k t s (mem_range.1 hk) (by rwa [hdk] at ht) (by rwa [hdk] at hs))
    (fun i j hi hj => hp k i j (mem_range.1 hk) (by rwa [hdk] at hi) (by rwa [hdk] at hj)) _ _ _ _

theorem emForm_congr (hM : M.Ok) (h : EmOk M P) {u u' w w' : Nat → ℝ}
    (hu : ∀ q, q < M.nn * M.ndof → u q = u' q) (hw : ∀ q, q < M.nn * M.ndof → w q = w' q) :
    emForm M P z x u w = emForm M P z x u' w' := by
  refine meshForm_congr hM (fun k Z X U U' W W' hk hU hW => ?_) hu hw
  have hdk := h.d k hk
  have hnp : M.npc = (P k).d + 1 := by rw [FeModel.npc, hdk]
  have hnd : M.npc * M.ndof = ((P k).d + 1) * ((P k).d + 1) := by rw [h.ndof, hnp, hdk]
  exact cellEm_congr (by rw [hdk]; exact h.dim) (fun l hl => hU l (by omega)) fun l hl => hW l (by omega)

variable (h : EmOk M P)
include h

theorem dofs_at (w : Nat → ℝ) (c n i : Nat) (hi : i < M.dim + 1) :
    dofs M w c (n * (M.dim + 1) + i) = w ((M.dim + 1) * cellNode M.npc M.c2n c n + i) := by
  unfold dofs cellDof
  rw [h.ndof, Nat.mul_comm n, Nat.mul_add_div (by omega), Nat.div_eq_of_lt hi, Nat.mul_add_mod,
    Nat.mod_eq_of_lt hi]
  rfl

/-- On a uniform displacement and potential strain and electric field vanish. -/
theorem unknown_fields (hM : M.Ok) (hdet : ∀ c, c < M.nc → detForm M.dim (M.cellX x c) ≠ 0) (i : Nat) {k c : Nat}
    (hk : k < M.domains.length) (hc : c < M.size (M.part k)) :
    (∀ t, (P k).strainForm (dofs M (unknown M.ndof i) (gcell (M.part k) c)) (M.cellX x (gcell (M.part k) c)) t = 0) ∧
    ∀ j, j < (P k).d →
      (P k).fieldForm (dofs M (unknown M.ndof i) (gcell (M.part k) c)) (M.cellX x (gcell (M.part k) c)) j = 0 := by
  have hdk := h.d k hk
  have hd : (P k).d = 1 ∨ (P k).d = 2 ∨ (P k).d = 3 := by rw [hdk]; exact h.dim
  have hdt : detForm (P k).d (M.cellX x (gcell (M.part k) c)) ≠ 0 := by
    rw [hdk]; exact hdet _ ((hM.domOk k).1 c hc)
  have hU : ∀ n j, j < M.dim + 1 → dofs M (unknown M.ndof i) (gcell (M.part k) c) (n * (M.dim + 1) + j) =
      if j = i then 1 else 0 := by
    intro n j hj
    rw [dofs_at h _ _ _ _ hj]
    unfold unknown
    rw [h.ndof, Nat.mul_add_mod, Nat.mod_eq_of_lt hj]
  refine ⟨strain_const hd hdt (b := fun j => if j = i then 1 else 0) fun n j _ hj => ?_,
    fun j hj => field_const hd hdt (a := if M.dim = i then 1 else 0) (fun n _ => ?_) hj⟩
  · rw [hdk] at hj ⊢
    exact hU n j (by omega)
  · rw [hdk]
    exact hU n _ (by omega)

theorem emForm_unknown (hM : M.Ok) (hdet : ∀ c, c < M.nc → detForm M.dim (M.cellX x c) ≠ 0) (u : Nat → ℝ) (i : Nat) :
    emForm M P z x u (unknown M.ndof i) = 0 := by
  unfold emForm meshForm
  refine sum_eq_zero fun k hk => sum_eq_zero fun c hc => ?_
  obtain ⟨e1, e2⟩ := unknown_fields h hM hdet i (mem_range.1 hk) (mem_range.1 hc)
  unfold cellEm
  dsimp only
  rw [sum_eq_zero fun t _ => by rw [e1, mul_zero], sum_eq_zero fun j hj => by rw [e2 j (mem_range.1 hj), mul_zero],
    sub_zero, mul_zero]

theorem emForm_unknown_left (hM : M.Ok) (hdet : ∀ c, c < M.nc → detForm M.dim (M.cellX x c) ≠ 0) (w : Nat → ℝ)
    (i : Nat) : emForm M P z x (unknown M.ndof i) w = 0 := by
  unfold emForm meshForm
  refine sum_eq_zero fun k hk => sum_eq_zero fun c hc => ?_
  obtain ⟨e1, e2⟩ := unknown_fields h hM hdet i (mem_range.1 hk) (mem_range.1 hc)
  unfold cellEm EmLaw.stressOf EmLaw.dispOf
  have f1 : ∀ t : Nat → ℝ, ∑ j ∈ range (P k).d, (P k).law.alpha *
      (P k).fieldForm (dofs M (unknown M.ndof i) (gcell (M.part k) c)) (M.cellX x (gcell (M.part k) c)) j * t j = 0 :=
    fun t => sum_eq_zero fun j hj => by rw [e2 j (mem_range.1 hj), mul_zero, zero_mul]
  have f2 : ∀ t : Nat → ℝ, ∑ j ∈ range (P k).d, (P k).law.alpha * (P k).law.alpha *
      (P k).fieldForm (dofs M (unknown M.ndof i) (gcell (M.part k) c)) (M.cellX x (gcell (M.part k) c)) j * t j = 0 :=
    fun t => sum_eq_zero fun j hj => by rw [e2 j (mem_range.1 hj), mul_zero, zero_mul]
  simp only [e1, f1, f2, zero_mul, mul_zero, sum_const_zero, sub_zero, add_zero]

end

/-! ## Work -/

section
variable {M : FeModel} (hM : M.Ok) {P : Nat → Em ℝ} (h : EmOk M P) {init : Nat → Nat → Nat → Nat}
  {eR : Nat → Nat → List Nat} (heR : ∀ k j, IsSchedule (eR k j) (M.size (M.part k)))
  {u z x : List ℝ} (hu : u.length = M.nn * M.ndof) (hz : z.length = M.nn) (hx : x.length = M.nn * M.dim)
  {sch : Nat → Nat → List Nat} (hs : SchedOk M sch (M.npc * M.ndof))
include hM h heR hu hz hx hs

/-- **C67**, for all materials in one, two and three dimensions: on every virtual displacement and potential the
residual does the work of the stress on the virtual strain, less that of the electric displacement on the virtual
electric field, less the work of the body loads. -/
theorem C67_work :
    (M.value (electroelastic abs M P init eR) sch u z x).Sat fun r => r.length = M.nn * M.ndof ∧ ∀ w : Nat → ℝ,
      ∑ q ∈ range (M.nn * M.ndof), at0 r q * w q =
        emForm M P z x (at0 u) w - loadWork M (fun k => (P k).bodyLoads) z w := by
  refine (RowEv.work hM (electroelastic_rowR h (init := init) heR) hu hz hx hs).mono ?_
  rintro r ⟨hl, hw⟩
  refine ⟨hl, fun w => ?_⟩
  rw [hw w]
  unfold emForm loadWork meshForm
  simp only [← sum_sub_distrib]
  refine sum_congr rfl fun k hk => sum_congr rfl fun c hc => ?_
  have hk' := mem_range.1 hk
  have hdk := h.d k hk'
  have hnd : M.npc * M.ndof = ((P k).d + 1) * ((P k).d + 1) := by rw [h.ndof, FeModel.npc, hdk]
  have hL : ∀ L ∈ (P k).bodyLoads, L.dof < (P k).d + 1 := fun L hL => by
    rw [hdk]
    exact (h.loads k _ (if_pos hk') L hL).dof
  have e1 := solidRow_work (P k) (by rw [hdk]; exact h.dim) (dofs M (at0 u) (gcell (M.part k) c))
    (M.cellZ z (gcell (M.part k) c)) (M.cellX x (gcell (M.part k) c)) (dofs M w (gcell (M.part k) c))
  have e2 := loads_work (d := (P k).d) hL c (gcell (M.part k) c) (M.cellZ z (gcell (M.part k) c))
    (dofs M w (gcell (M.part k) c))
  have hll : ∀ Z W : Nat → ℝ, (fun L => cellLoad L M.dim M.ndof c (gcell (M.part k) c) Z W) =
      fun L => cellLoad L (P k).d ((P k).d + 1) c (gcell (M.part k) c) Z W := by
    intro Z W
    rw [h.ndof, hdk]
  rw [hll, ← e1, sub_eq_add_neg, ← e2, ← sum_add_distrib, ← hnd]
  exact sum_congr rfl fun l _ => by rw [← add_mul]; rfl

/-- **C67**, balance of forces and of charges: in every direction the nodal forces add up to the resultant of
the body loads, and so do the nodal charges. -/
theorem C67_balance (hdet : ∀ c, c < M.nc → detForm M.dim (M.cellX x c) ≠ 0) {i : Nat} (hi : i < M.ndof) :
    (M.value (electroelastic abs M P init eR) sch u z x).Sat fun r =>
      ∑ n ∈ range M.nn, at0 r (M.ndof * n + i) = -loadWork M (fun k => (P k).bodyLoads) z (unknown M.ndof i) := by
  refine (C67_work hM h (init := init) heR hu hz hx hs).mono ?_
  rintro r ⟨-, hw⟩
  have := hw (unknown M.ndof i)
  rwa [sum_unknown hi, emForm_unknown h hM hdet, zero_sub] at this

/-- **C67**: only differences of the potential matter, and only relative displacements: adding a constant to
one unknown of all nodes leaves the residual as it is. -/
theorem C67_ground (hdet : ∀ c, c < M.nc → detForm M.dim (M.cellX x c) ≠ 0) {i : Nat} {a : ℝ} {u' : List ℝ}
    (hu' : u'.length = M.nn * M.ndof)
    (huu : ∀ n j, n < M.nn → j < M.ndof → at0 u' (M.ndof * n + j) = at0 u (M.ndof * n + j) + if j = i then a else 0)
    {init' : Nat → Nat → Nat → Nat} {eR' : Nat → Nat → List Nat}
    (heR' : ∀ k j, IsSchedule (eR' k j) (M.size (M.part k)))
    {sch' : Nat → Nat → List Nat} (hs' : SchedOk M sch' (M.npc * M.ndof)) :
    ∃ r r', M.value (electroelastic abs M P init eR) sch u z x = .ok r ∧
      M.value (electroelastic abs M P init' eR') sch' u' z x = .ok r' ∧
      ∀ q, q < M.nn * M.ndof → at0 r q = at0 r' q := by
  obtain ⟨r, e, -, hw⟩ := C67_work hM h (init := init) heR hu hz hx hs
  obtain ⟨r', e', -, hw'⟩ := C67_work hM h (init := init') heR' hu' hz hx hs'
  refine ⟨r, r', e, e', fun q hq => ?_⟩
  have hpos : 0 < M.ndof := by rw [h.ndof]; omega
  have hc : emForm M P z x (at0 u') (Pi.single q 1) =
      emForm M P z x (fun l => 1 * at0 u l + a * unknown M.ndof i l) (Pi.single q 1) := by
    refine emForm_congr hM h (fun l hl => ?_) fun _ _ => rfl
    have hn : l / M.ndof < M.nn := Nat.div_lt_of_lt_mul (by rwa [Nat.mul_comm])
    have := huu (l / M.ndof) (l % M.ndof) hn (Nat.mod_lt _ hpos)
    rw [Nat.div_add_mod] at this
    rw [this]
    unfold unknown
    split_ifs <;> ring
  rw [← work_single hq, ← work_single (r := r') hq, hw, hw', hc, emForm_lin, emForm_unknown_left h hM hdet]
  ring

end

/-! ## Scaling of the potential -/

/-- The same material with unit scaling. -/
def Em.unscaled (P : Em ℝ) : Em ℝ := { P with law := { P.law with alpha := 1 } }

section
variable {M : FeModel} {P : Nat → Em ℝ} (h : EmOk M P)
include h

theorem emForm_scaled {z x : List ℝ} {s : ℝ} (hsc : ∀ k, k < M.domains.length → (P k).law.alpha = s)
    (u w : Nat → ℝ) :
    emForm M P z x u w = emForm M (fun k => (P k).unscaled) z x
      (scaleT M.ndof M.dim s u) (scaleT M.ndof M.dim s w) := by
  unfold emForm meshForm
  refine sum_congr rfl fun k hk => sum_congr rfl fun c hc => ?_
  have hk' := mem_range.1 hk
  have hdk := h.d k hk'
  have hd : (P k).d = 1 ∨ (P k).d = 2 ∨ (P k).d = 3 := by rw [hdk]; exact h.dim
  have sc : ∀ (u : Nat → ℝ) n i, i < M.dim + 1 →
      dofs M (scaleT M.ndof M.dim s u) (gcell (M.part k) c) (n * (M.dim + 1) + i) =
      (if i = M.dim then s else 1) * dofs M u (gcell (M.part k) c) (n * (M.dim + 1) + i) := by
    intro u n i hi
    rw [dofs_at h _ _ _ _ hi, dofs_at h _ _ _ _ hi]
    unfold scaleT
    rw [h.ndof, Nat.mul_add_mod, Nat.mod_eq_of_lt hi]
  have eS : ∀ u : Nat → ℝ, (P k).unscaled.strainForm (dofs M (scaleT M.ndof M.dim s u) (gcell (M.part k) c))
      (M.cellX x (gcell (M.part k) c)) =
      (P k).strainForm (dofs M u (gcell (M.part k) c)) (M.cellX x (gcell (M.part k) c)) :=
    fun u => funext fun t => voigtStrain_congr (d := (P k).d) hd (fun n i _ hi => by
      show dofs M (scaleT M.ndof M.dim s u) _ (n * ((P k).d + 1) + i) = _
      rw [hdk] at hi ⊢
      rw [sc _ _ _ (by omega), if_neg (by omega), one_mul]) fun _ _ _ _ => rfl
  have eG : ∀ (u : Nat → ℝ), (P k).unscaled.fieldForm (dofs M (scaleT M.ndof M.dim s u) (gcell (M.part k) c))
      (M.cellX x (gcell (M.part k) c)) = fun j =>
      s * (P k).fieldForm (dofs M u (gcell (M.part k) c)) (M.cellX x (gcell (M.part k) c)) j := by
    intro u
    funext j
    unfold Em.fieldForm scalarField
    rw [mul_neg, mul_sum]
    refine congrArg _ (sum_congr rfl fun n _ => ?_)
    rw [show (P k).unscaled.d = (P k).d from rfl]
    dsimp only
    rw [hdk, sc _ _ _ (by omega), if_pos rfl]
    ring
  unfold cellEm
  dsimp only
  rw [eS, eS, eG, eG]
  rw [show (P k).unscaled.volForm abs (M.cellX x (gcell (M.part k) c)) = (P k).volForm abs (M.cellX x (gcell (M.part k) c)) from rfl,
    show (P k).unscaled.d = (P k).d from rfl, show (P k).unscaled.pen = (P k).pen from rfl]
  unfold EmLaw.stressOf EmLaw.dispOf
  rw [show (P k).unscaled.law.alpha = 1 from rfl, show (P k).unscaled.law.stiff = (P k).law.stiff from rfl,
    show (P k).unscaled.law.piezo = (P k).law.piezo from rfl, show (P k).unscaled.law.perm = (P k).law.perm from rfl,
    hsc k hk']
  congr 2
  · refine sum_congr rfl fun t _ => ?_
    simp only [one_mul]
  · refine sum_congr rfl fun t _ => ?_
    rw [← mul_assoc]
    congr 1
    rw [add_mul, sum_mul, sum_mul]
    congr 1 <;> exact sum_congr rfl fun _ _ => by ring

end

section
variable {M : FeModel} (hM : M.Ok) {P : Nat → Em ℝ} (h : EmOk M P) {init init' : Nat → Nat → Nat → Nat}
  {eR eR' : Nat → Nat → List Nat} (heR : ∀ k j, IsSchedule (eR k j) (M.size (M.part k)))
  (heR' : ∀ k j, IsSchedule (eR' k j) (M.size (M.part k)))
  {u u' z x : List ℝ} (hu : u.length = M.nn * M.ndof) (hu' : u'.length = M.nn * M.ndof) (hz : z.length = M.nn)
  (hx : x.length = M.nn * M.dim) {sch sch' : Nat → Nat → List Nat} (hs : SchedOk M sch (M.npc * M.ndof))
  (hs' : SchedOk M sch' (M.npc * M.ndof))
include hM h heR heR' hu hu' hz hx hs hs'

/-- **C67**: the scaling `s` is a change of the unknowns.  The residual is that of the material without scaling
at the potentials multiplied by `s`, with the nodal charges multiplied by `s`; the charges of the body loads are
in the scaled units, that is they are not multiplied. -/
theorem C67_scaling {s : ℝ} (hsc : ∀ k, k < M.domains.length → (P k).law.alpha = s)
    (hsu : at0 u' = scaleT M.ndof M.dim s (at0 u)) :
    ∃ r r', M.value (electroelastic abs M P init eR) sch u z x = .ok r ∧
      M.value (electroelastic abs M (fun k => { (P k).unscaled with bodyLoads := [] }) init' eR') sch' u' z x = .ok r' ∧
      ∀ q, q < M.nn * M.ndof → at0 r q = (if q % M.ndof = M.dim then s else 1) * at0 r' q -
        loadWork M (fun k => (P k).bodyLoads) z (Pi.single q 1) := by
  obtain ⟨r, e, -, hw⟩ := C67_work hM h (init := init) heR hu hz hx hs
  have h' : EmOk M fun k => { (P k).unscaled with bodyLoads := [] } :=
    ⟨h.dim, h.ndof, h.d, fun _ _ _ B hB => by cases hB⟩
  obtain ⟨r', e', -, hw'⟩ := C67_work hM h' (init := init') heR' hu' hz hx hs'
  refine ⟨r, r', e, e', fun q hq => ?_⟩
  have hl : loadWork M (fun _ => []) z (Pi.single q 1) = 0 := by
    unfold loadWork
    exact sum_eq_zero fun k hk => sum_eq_zero fun c _ => rfl
  have h1 := hw (Pi.single q 1)
  have h2 := hw' (Pi.single q 1)
  rw [hl, work_single hq, sub_zero, hsu] at h2
  have h3 := emForm_lin_right (M := M) (P := fun k => (P k).unscaled) (z := z) (x := x)
    (if q % M.ndof = M.dim then s else 1) 0 (Pi.single q 1) (Pi.single q 1) (scaleT M.ndof M.dim s (at0 u))
  simp only [zero_mul, add_zero] at h3
  rw [work_single hq, emForm_scaled h hsc, scaleT_single, h3] at h1
  rw [h1, h2]
  rfl

end

/-! ## The matrix -/

section
variable {M : FeModel} (hM : M.Ok) {P : Nat → Em ℝ} {penF : Nat → Fad → Fad} (h : EmOk M P)
  {iF : Nat → Nat → Nat → Nat} {eF : Nat → Nat → List Nat} (heF : ∀ k j, IsSchedule (eF k j) (M.size (M.part k)))
  {o : List Nat} (ho : IsSchedule o M.nn) {sch : Nat → Nat → List Nat}
  {u z x : List ℝ} (hu : u.length = M.nn * M.ndof) (hz : z.length = M.nn)
  (hx : x.length = M.nn * M.dim) (hgood : ∀ c, c < M.nc → emGood M P penF (M.cellZ z c) (M.cellX x c))
  (hs : SchedOk M sch (M.npc * M.ndof * (M.npc * M.ndof)))
include hM h heF ho hu hz hx hgood hs

/-- **C67**: the matrix `gradient_u` returns is the matrix of the work, whatever the state. -/
theorem C67_matrix :
    (M.gradientU (electroelastic Fad.fabs M (fun k => (P k).lift (penF k)) iF eF) o sch u z x).Sat fun J =>
      J.WF M.nn M.nn ∧ ∀ p w : Nat → ℝ,
        ∑ q ∈ range (M.nn * M.ndof), w q * ∑ j ∈ range (M.nn * M.ndof), J.dense q j * p j = emForm M P z x p w := by
  obtain ⟨u', rfl⟩ := list_eq_ofFn hu
  let eR : Nat → Nat → List Nat := fun k _ => List.range (M.size (M.part k))
  have heR : ∀ k j, IsSchedule (eR k j) (M.size (M.part k)) := fun k _ => IsSchedule.range _
  have hsR : SchedOk M (seqSched M (M.npc * M.ndof)) (M.npc * M.ndof) := seqSched_ok M _
  obtain ⟨r, J, hr, hJ, hwf, hD⟩ := C67_gradient_u h hM (iR := iF) heR heF ho (u := u') hz hx hgood hs
    (schR := fun _ => seqSched M (M.npc * M.ndof)) (fun _ => hsR)
  refine ⟨J, hJ, hwf, fun p w => ?_⟩
  exact matrix_of_affine hD (w := w) (B := fun p => emForm M P z x p w)
    (b0 := -loadWork M (fun k => (P k).bodyLoads) z w)
    (fun a b p q => emForm_lin a b p q w)
    (fun p q hpq => emForm_congr hM h hpq fun _ _ => rfl) (fun y => by
      obtain ⟨v1, e1, -, e2⟩ := C67_work hM h (init := iF) heR (List.length_ofFn (f := y)) hz hx hsR
      rw [(hr y).1] at e1
      cases e1
      rw [e2 w, sub_eq_add_neg]) p

/-- **C67**: with symmetric stiffness and permittivity the matrix is symmetric, whatever the coupling and the
scaling. -/
theorem C67_symmetric
    (hC : ∀ k t s, k < M.domains.length → t < numVoigt M.dim → s < numVoigt M.dim →
      (P k).law.stiff t s = (P k).law.stiff s t)
    (hp : ∀ k i j, k < M.domains.length → i < M.dim → j < M.dim → (P k).law.perm i j = (P k).law.perm j i) :
    (M.gradientU (electroelastic Fad.fabs M (fun k => (P k).lift (penF k)) iF eF) o sch u z x).Sat fun J =>
      ∀ i j, i < M.nn * M.ndof → j < M.nn * M.ndof → J.dense i j = J.dense j i := by
  refine (C67_matrix hM h heF ho hu hz hx hgood hs).mono ?_
  rintro J ⟨-, hJ⟩ i j hi hj
  have h1 := hJ (Pi.single j 1) (Pi.single i 1)
  have h2 := hJ (Pi.single i 1) (Pi.single j 1)
  rw [sum_single_left hi, sum_single_right hj] at h1
  rw [sum_single_left hj, sum_single_right hi] at h2
  rw [h1, h2, emForm_symm hC hp h]

end

/-! ## The sign of the charges -/

/-- The potentials of a state. -/
def potentials (m i : Nat) (u : Nat → ℝ) (q : Nat) : ℝ := if q % m = i then u q else 0

/-- Energy of the electric field in the mesh: volume, penalty, and `E · ε E` in scaled units. -/
noncomputable def fieldEnergy (M : FeModel) (P : Nat → Em ℝ) (z x : List ℝ) (u : Nat → ℝ) : ℝ :=
  meshForm M (fun k Z X U W => (P k).volForm abs X * (P k).pen (meanDensity ((P k).d + 1) Z) *
    ∑ i ∈ range (P k).d, (∑ j ∈ range (P k).d, (P k).law.alpha * (P k).law.alpha * (P k).fieldForm U X j *
      (P k).law.perm i j) * (P k).fieldForm W X i) z x u u

section
variable {M : FeModel} (hM : M.Ok) {P : Nat → Em ℝ} (h : EmOk M P) {init : Nat → Nat → Nat → Nat}
  {eR : Nat → Nat → List Nat} (heR : ∀ k j, IsSchedule (eR k j) (M.size (M.part k)))
  {u z x : List ℝ} (hu : u.length = M.nn * M.ndof) (hz : z.length = M.nn) (hx : x.length = M.nn * M.dim)
  {sch : Nat → Nat → List Nat} (hs : SchedOk M sch (M.npc * M.ndof))
include hM h heR hu hz hx hs

/-- **C67**, sign of the charges: in a body without piezoelectric coupling, if every node either has no charge
left in the residual or is grounded, the body loads do the work `-∫ E · ε E` on the potential.  Gauss's law, the
divergence of the electric displacement is the charge density, would give the opposite sign; see
`C67_charge_sign_false`. -/
theorem C67_charge_work
    (hpz : ∀ k i t, k < M.domains.length → i < M.dim → t < numVoigt M.dim → (P k).law.piezo i t = 0) :
    (M.value (electroelastic abs M P init eR) sch u z x).Sat fun r =>
      (∀ n, n < M.nn → at0 r (M.ndof * n + M.dim) = 0 ∨ at0 u (M.ndof * n + M.dim) = 0) →
        loadWork M (fun k => (P k).bodyLoads) z (potentials M.ndof M.dim (at0 u)) = -fieldEnergy M P z x (at0 u) := by
  refine (C67_work hM h (init := init) heR hu hz hx hs).mono ?_
  rintro r ⟨-, hw⟩ h0
  have hpos : 0 < M.ndof := by rw [h.ndof]; omega
  have hl := hw (potentials M.ndof M.dim (at0 u))
  rw [sum_eq_zero fun q hq => ?_] at hl
  · have he : emForm M P z x (at0 u) (potentials M.ndof M.dim (at0 u)) = -fieldEnergy M P z x (at0 u) := by
      unfold emForm fieldEnergy meshForm
      rw [← sum_neg_distrib]
      refine sum_congr rfl fun k hk => ?_
      rw [← sum_neg_distrib]
      refine sum_congr rfl fun c hc => ?_
      have hk' := mem_range.1 hk
      have hdk := h.d k hk'
      have hd : (P k).d = 1 ∨ (P k).d = 2 ∨ (P k).d = 3 := by rw [hdk]; exact h.dim
      have sc : ∀ n i, i < M.dim + 1 →
          dofs M (potentials M.ndof M.dim (at0 u)) (gcell (M.part k) c) (n * (M.dim + 1) + i) =
          if i = M.dim then dofs M (at0 u) (gcell (M.part k) c) (n * (M.dim + 1) + i) else 0 := by
        intro n i hi
        rw [dofs_at h _ _ _ _ hi, dofs_at h _ _ _ _ hi]
        unfold potentials
        rw [h.ndof, Nat.mul_add_mod, Nat.mod_eq_of_lt hi]
      have eS : ∀ t, (P k).strainForm (dofs M (potentials M.ndof M.dim (at0 u)) (gcell (M.part k) c))
          (M.cellX x (gcell (M.part k) c)) t = 0 := by
        intro t
        have : (P k).strainForm (dofs M (potentials M.ndof M.dim (at0 u)) (gcell (M.part k) c))
            (M.cellX x (gcell (M.part k) c)) t =
            voigtStrain (P k).d (fun _ _ => 0) (gradForm (P k).d (M.cellX x (gcell (M.part k) c))) t :=
          voigtStrain_congr hd (fun n i hn hi => by
            rw [hdk] at hi ⊢
            rw [sc _ _ (by omega), if_neg (by omega)]) fun _ _ _ _ => rfl
        rw [this]
        unfold voigtStrain fieldGrad
        simp
      have eF : ∀ j, (P k).fieldForm (dofs M (potentials M.ndof M.dim (at0 u)) (gcell (M.part k) c))
          (M.cellX x (gcell (M.part k) c)) j =
          (P k).fieldForm (dofs M (at0 u) (gcell (M.part k) c)) (M.cellX x (gcell (M.part k) c)) j := by
        intro j
        refine congrArg _ (sum_congr rfl fun n _ => ?_)
        dsimp only
        rw [hdk, sc _ _ (by omega), if_pos rfl]
      unfold cellEm
      dsimp only
      rw [sum_eq_zero fun t _ => by rw [eS, mul_zero], zero_sub, mul_neg, neg_inj]
      congr 1
      refine sum_congr rfl fun i hi => ?_
      rw [eF]
      congr 1
      unfold EmLaw.dispOf
      rw [sum_eq_zero (s := range (numVoigt (P k).d)) fun s hs => ?_, add_zero]
      rw [hpz k i s hk' (by have := mem_range.1 hi; omega) (by have := mem_range.1 hs; rwa [hdk] at this), mul_zero]
    rw [he] at hl
    linarith
  · have hn : q / M.ndof < M.nn := Nat.div_lt_of_lt_mul (by rw [Nat.mul_comm]; exact mem_range.1 hq)
    unfold potentials
    split_ifs with hm
    · have := h0 (q / M.ndof) hn
      have e := Nat.div_add_mod q M.ndof
      rw [hm] at e
      rw [e] at this
      rcases this with this | this
      · rw [this, zero_mul]
      · rw [this, mul_zero]
    · rw [mul_zero]

end

/-! ## Energy -/

/-- Gradient of a quadratic form: what the derivative of `y ↦ B y y` is for a symmetric form `B`. -/
theorem quad_gradient {n : Nat} {B : (Nat → ℝ) → (Nat → ℝ) → ℝ}
    (hlin : ∀ a b p q w, B (fun l => a * p l + b * q l) w = a * B p w + b * B q w)
    (hsym : ∀ p q, B p q = B q p)
    (hcongr : ∀ p p' q q', (∀ l, l < n → p l = p' l) → (∀ l, l < n → q l = q' l) → B p q = B p' q')
    {f : (Fin n → ℝ) → ℝ} {g : Nat → ℝ} {u : Fin n → ℝ} (hd : HasFDerivAt f (lin n g) u)
    (hf : ∀ᶠ y in nhds u, f y = B (at0 (List.ofFn y)) (at0 (List.ofFn y))) {q : Nat} (hq : q < n) :
    g q = 2 * B (at0 (List.ofFn u)) (Pi.single q 1) := by
  have hd' := hd.congr_of_eventuallyEq (hf.mono fun y hy => hy.symm)
  set w : Fin n → ℝ := fun i => (Pi.single q 1 : Nat → ℝ) i with hw
  have hln := hd'.hasLineDerivAt w
  unfold HasLineDerivAt at hln
  have hlin' : lin n g w = g q := by
    rw [lin_apply]
    have := sum_single_right hq g
    rw [sum_range] at this
    exact this
  rw [hlin'] at hln
  have hexp : ∀ t : ℝ, B (at0 (List.ofFn (u + t • w))) (at0 (List.ofFn (u + t • w))) =
      B (at0 (List.ofFn u)) (at0 (List.ofFn u)) + 2 * t * B (at0 (List.ofFn u)) (Pi.single q 1) +
        t * t * B (Pi.single q 1) (Pi.single q 1) := by
    intro t
    have hc : ∀ i, i < n → at0 (List.ofFn (u + t • w)) i = 1 * at0 (List.ofFn u) i + t * (Pi.single q 1 : Nat → ℝ) i := by
      intro i hi
      simp [at0, hi, hw]
    rw [hcongr _ _ _ _ hc hc, hlin, hsym (at0 (List.ofFn u)), hsym (Pi.single q 1), hlin, hlin,
      hsym (Pi.single q 1) (at0 (List.ofFn u))]
    ring
  have hq2 : HasDerivAt (fun t : ℝ => B (at0 (List.ofFn (u + t • w))) (at0 (List.ofFn (u + t • w))))
      (2 * B (at0 (List.ofFn u)) (Pi.single q 1)) 0 := by
    simp only [hexp]
    have h1 := hasDerivAt_id (0 : ℝ)
    have h2 := (((h1.const_mul 2).mul_const (B (at0 (List.ofFn u)) (Pi.single q 1))).const_add
      (B (at0 (List.ofFn u)) (at0 (List.ofFn u)))).add ((h1.mul h1).mul_const (B (Pi.single q 1) (Pi.single q 1)))
    refine h2.congr_deriv ?_
    simp
  exact hln.unique hq2

section
variable {M : FeModel} (hM : M.Ok) {P : Nat → Em ℝ} (h : EmOk M P) {penF : Nat → Fad → Fad}
  {eR eX eU eZ : Nat → List Nat} (heR : ∀ k, IsSchedule (eR k) (M.size (M.part k))) {sv sx su sz : Sched} {wv : Nat}
include hM h heR

/-- **C68**: the value is the sum over the steps of the work of the stress on the strain less that of the electric
displacement on the electric field. -/
theorem C68_value {S : List (List ℝ)} {z x : List ℝ} (dt : ℝ) (hS : ∀ u ∈ S, u.length = M.nn * M.ndof)
    (hz : z.length = M.nn) (hx : x.length = M.nn * M.dim) (hsv : sv.Ok M S.length wv) :
    physicsValue M (electroelasticEnergy abs P eR) Post.none sv S z x dt =
      .ok (∑ t ∈ range S.length, emForm M P z x (at0 (S[t]?.getD [])) (at0 (S[t]?.getD []))) := by
  rw [value_of_form hM (emEnergy_computes h.dim h.ndof h.d heR dt) (emEnergy_local h.dim h.ndof h.d) hS hz hx hsv]
  congr 1
  show ∑ k ∈ range M.domains.length, _ = _
  rw [sum_comm]
  refine sum_congr rfl fun t _ => ?_
  unfold emForm meshForm
  exact sum_congr rfl fun k hk => sum_congr rfl fun c _ => energyForm_eq (P k) _ _ _

/-- **C68**: without body loads the value at one state is the product of the state and the residual; with body
loads it exceeds it by their work on the state. -/
theorem C68_residual {u z x : List ℝ} (dt : ℝ) (hu : u.length = M.nn * M.ndof) (hz : z.length = M.nn)
    (hx : x.length = M.nn * M.dim) (hsv : sv.Ok M 1 wv) {init : Nat → Nat → Nat → Nat} {e : Nat → Nat → List Nat}
    (he : ∀ k j, IsSchedule (e k j) (M.size (M.part k))) {sch : Nat → Nat → List Nat}
    (hs : SchedOk M sch (M.npc * M.ndof)) :
    ∃ r, M.value (electroelastic abs M P init e) sch u z x = .ok r ∧
      physicsValue M (electroelasticEnergy abs P eR) Post.none sv [u] z x dt =
        .ok (∑ q ∈ range (M.nn * M.ndof), at0 r q * at0 u q + loadWork M (fun k => (P k).bodyLoads) z (at0 u)) := by
  obtain ⟨r, e1, -, hw⟩ := C67_work hM h (init := init) he hu hz hx hs
  refine ⟨r, e1, ?_⟩
  rw [C68_value hM h heR dt (by simpa using hu) hz hx hsv, hw]
  simp

variable (heX : ∀ k, IsSchedule (eX k) (M.size (M.part k))) (heU : ∀ k, IsSchedule (eU k) (M.size (M.part k)))
  (heZ : ∀ k, IsSchedule (eZ k) (M.size (M.part k)))
  {z : Fin M.nn → ℝ} {x : Fin (M.nn * M.dim) → ℝ} {u : Fin (M.nn * M.ndof) → ℝ}
include heX heU heZ

/-- **C68**: with symmetric stiffness and permittivity, `gradient_u` of the energy is twice the internal force:
twice the residual at `u` less the residual at zero.  The problem is self-adjoint. -/
theorem C68_gradient
    (hC : ∀ k t s, k < M.domains.length → t < numVoigt M.dim → s < numVoigt M.dim →
      (P k).law.stiff t s = (P k).law.stiff s t)
    (hp : ∀ k i j, k < M.domains.length → i < M.dim → j < M.dim → (P k).law.perm i j = (P k).law.perm j i) (dt : ℝ)
    (hgood : ∀ c, c < M.nc → emGood M P penF (M.cellZ (List.ofFn z) c) (M.cellX (List.ofFn x) c))
    (hsv : sv.Ok M 1 wv) (hsx : sx.Ok M 1 (M.npc * M.dim)) (hsu : su.Ok M 1 (M.npc * M.ndof))
    (hsz : sz.Ok M 1 (M.npc * 1))
    {init : Nat → Nat → Nat → Nat} {e : Nat → Nat → List Nat} (he : ∀ k j, IsSchedule (e k j) (M.size (M.part k)))
    {sch sch0 : Nat → Nat → List Nat} (hs : SchedOk M sch (M.npc * M.ndof)) (hs0 : SchedOk M sch0 (M.npc * M.ndof)) :
    ∃ v v0 g, M.value (electroelastic abs M P init e) sch (List.ofFn u) (List.ofFn z) (List.ofFn x) = .ok v ∧
      M.value (electroelastic abs M P init e) sch0 (List.replicate (M.nn * M.ndof) 0) (List.ofFn z) (List.ofFn x) =
        .ok v0 ∧
      (physicsCriterion M (electroelasticEnergy abs P eR)
        (electroelasticEnergy Fad.fabs (fun k => (P k).lift (penF k)) eX)
        (electroelasticEnergy Fad.fabs (fun k => (P k).lift (penF k)) eU)
        (electroelasticEnergy Fad.fabs (fun k => (P k).lift (penF k)) eZ) Post.none sv sx su sz).gradU
        [List.ofFn u] (List.ofFn z) (List.ofFn x) 0 dt = .ok g ∧
      ∀ q, q < M.nn * M.ndof → at0 g q = 2 * (at0 v q - at0 v0 q) := by
  obtain ⟨v, hv, -, hw⟩ := C67_work hM h he (init := init) (u := List.ofFn u) (z := List.ofFn z)
    (x := List.ofFn x) List.length_ofFn List.length_ofFn List.length_ofFn hs
  obtain ⟨v0, hv0, -, hw0⟩ := C67_work hM h he (init := init) (u := List.replicate (M.nn * M.ndof) 0) (z := List.ofFn z)
    (x := List.ofFn x) List.length_replicate List.length_ofFn List.length_ofFn hs0
  obtain ⟨f, g, hf, hg, hl, hd⟩ := (C68_differentiates hM h heR heX heU heZ (sv := sv) (sx := sx) (su := su)
    (sz := sz) dt (S := [List.ofFn u]) (u := u) (j := 0) rfl (by simp) hgood hsv hsx hsu hsz).gradU
  refine ⟨v, v0, g, hv, hv0, hg, fun q hq => ?_⟩
  have := quad_gradient (B := emForm M P (List.ofFn z) (List.ofFn x)) (fun a b p q w => emForm_lin a b p q w)
    (emForm_symm hC hp h) (fun p p' q q' a b => emForm_congr hM h a b) hd (by
      filter_upwards [hf] with y hy
      have e1 := C68_value hM h heR dt (S := [List.ofFn y]) (z := List.ofFn z)
        (x := List.ofFn x) (sv := sv) (by simp) List.length_ofFn List.length_ofFn hsv
      have hy' : physicsValue M (electroelasticEnergy abs P eR) Post.none sv [List.ofFn y] (List.ofFn z)
        (List.ofFn x) dt = .ok (f y) := hy
      rw [e1, Res.ok.injEq] at hy'
      rw [← hy']
      simp) hq
  rw [this, ← work_single (r := v) hq, ← work_single (r := v0) hq, hw, hw0]
  have hz0 : emForm M P (List.ofFn z) (List.ofFn x) (at0 (List.replicate (M.nn * M.ndof) 0)) (Pi.single q 1) = 0 := by
    have := emForm_lin (M := M) (P := P) (z := List.ofFn z) (x := List.ofFn x) 0 0 (fun _ => 0) (fun _ => 0)
      (Pi.single q 1)
    simp only [zero_mul, add_zero] at this
    rw [show at0 (List.replicate (M.nn * M.ndof) (0 : ℝ)) = fun _ => 0 from funext fun l => at0_replicate _ _, this]
  rw [hz0]
  ring

end

end Plato.Em
