import Verif.Dyn.Track
import Verif.Mech.Stiffness

/-!
# Forms over the mesh

Bilinear forms that are sums over the cells of the domains, and what linearity, symmetry and sign of the
forms of the cells say about the form of the mesh.  Then the forms of structural dynamics.
-/

namespace Plato.Dyn
open Finset Plato Plato.Mech Plato.Thermal

/-- Nodal values of a field on a global cell. -/
def dofs (M : FeModel) (u : Nat → ℝ) (c : Nat) : Nat → ℝ := fun l => u (cellDof M.npc M.ndof M.c2n c l)

/-- Form of a cell: domain, densities and coordinates of the nodes, two fields. -/
abbrev CellForm := Nat → (Nat → ℝ) → (Nat → Nat → ℝ) → (Nat → ℝ) → (Nat → ℝ) → ℝ

/-- Sum of a form over the cells of all domains. -/
noncomputable def meshForm (M : FeModel) (f : CellForm) (z x : List ℝ) (u w : Nat → ℝ) : ℝ :=
  ∑ k ∈ range M.domains.length, ∑ c ∈ range (M.size (M.part k)),
    f k (M.cellZ z (gcell (M.part k) c)) (M.cellX x (gcell (M.part k) c)) (dofs M u (gcell (M.part k) c))
      (dofs M w (gcell (M.part k) c))

section
variable {M : FeModel} {f g : CellForm} {z x : List ℝ}

theorem meshForm_lin
    (hf : ∀ k Z X (a b : ℝ) (U V W : Nat → ℝ), f k Z X (fun l => a * U l + b * V l) W = a * f k Z X U W + b * f k Z X V W)
    (a b : ℝ) (u v w : Nat → ℝ) :
    meshForm M f z x (fun q => a * u q + b * v q) w = a * meshForm M f z x u w + b * meshForm M f z x v w := by
  unfold meshForm
  simp only [mul_sum, ← sum_add_distrib]
  exact sum_congr rfl fun k _ => sum_congr rfl fun c _ => hf k _ _ a b _ _ _

theorem meshForm_add (κ : Nat → ℝ) (u w : Nat → ℝ) :
    meshForm M (fun k Z X U W => f k Z X U W + κ k * g k Z X U W) z x u w =
      meshForm M f z x u w + meshForm M (fun k Z X U W => κ k * g k Z X U W) z x u w := by
  unfold meshForm
  simp only [← sum_add_distrib]

theorem meshForm_smul {κ : Nat → ℝ} {a : ℝ} (h : ∀ k, k < M.domains.length → κ k = a) (u w : Nat → ℝ) :
    meshForm M (fun k Z X U W => κ k * f k Z X U W) z x u w = a * meshForm M f z x u w := by
  unfold meshForm
  simp only [mul_sum]
  exact sum_congr rfl fun k hk => sum_congr rfl fun c _ => by rw [h k (mem_range.1 hk)]

theorem meshForm_symm (hf : ∀ k Z X U W, f k Z X U W = f k Z X W U) (u w : Nat → ℝ) :
    meshForm M f z x u w = meshForm M f z x w u := by
  unfold meshForm
  exact sum_congr rfl fun k _ => sum_congr rfl fun c _ => hf k _ _ _ _

theorem meshForm_nonneg {u w : Nat → ℝ} (hf : ∀ k c, k < M.domains.length → c < M.size (M.part k) →
      0 ≤ f k (M.cellZ z (gcell (M.part k) c)) (M.cellX x (gcell (M.part k) c)) (dofs M u (gcell (M.part k) c))
        (dofs M w (gcell (M.part k) c))) : 0 ≤ meshForm M f z x u w := by
  unfold meshForm
  exact sum_nonneg fun k hk => sum_nonneg fun c hc => hf k c (mem_range.1 hk) (mem_range.1 hc)

/-- Only the degrees of freedom of the mesh matter. -/
theorem meshForm_congr (hM : M.Ok)
    (hf : ∀ k Z X (U U' W W' : Nat → ℝ), k < M.domains.length → (∀ l, l < M.npc * M.ndof → U l = U' l) →
      (∀ l, l < M.npc * M.ndof → W l = W' l) → f k Z X U W = f k Z X U' W') {u u' w w' : Nat → ℝ}
    (hu : ∀ q, q < M.nn * M.ndof → u q = u' q) (hw : ∀ q, q < M.nn * M.ndof → w q = w' q) :
    meshForm M f z x u w = meshForm M f z x u' w' := by
  unfold meshForm
  refine sum_congr rfl fun k hk => sum_congr rfl fun c hc => ?_
  have hlt : ∀ l, l < M.npc * M.ndof → cellDof M.npc M.ndof M.c2n (gcell (M.part k) c) l < M.nn * M.ndof :=
    fun l hl => hM.mesh.dof_lt (d := M.ndof) ((hM.domOk k).1 c (mem_range.1 hc)) (l := l) hl
  exact hf k _ _ _ _ _ _ (mem_range.1 hk) (fun l hl => hu _ (hlt l hl)) fun l hl => hw _ (hlt l hl)

end

/-! ## Structural dynamics -/

/-- Mass of a cell as bilinear form: volume, penalty, density and the product of the fields at the
integration point. -/
noncomputable def cellMass (P : Dyn ℝ) (Z : Nat → ℝ) (X : Nat → Nat → ℝ) (U W : Nat → ℝ) : ℝ :=
  P.el.volForm abs X * P.el.pen (meanDensity (P.el.d + 1) Z) * P.density *
    ∑ i ∈ range P.el.d, P.point U i * P.point W i

/-- Work of the stress of the reference strain in a cell. -/
noncomputable def cellPre (P : Elastostatic ℝ) (Z : Nat → ℝ) (X : Nat → Nat → ℝ) (W : Nat → ℝ) : ℝ :=
  P.volForm abs X * P.pen (meanDensity (P.d + 1) Z) *
    ∑ t ∈ range (numVoigt P.d), ∑ s ∈ range (numVoigt P.d), P.refStrain s * P.stiff t s * P.strainForm W X t

/-- Mass form of the mesh. -/
noncomputable def massForm (M : FeModel) (P : Nat → Dyn ℝ) : List ℝ → List ℝ → (Nat → ℝ) → (Nat → ℝ) → ℝ :=
  meshForm M fun k Z X U W => cellMass (P k) Z X U W

/-- Rayleigh damping: in every domain its stiffness coefficient times the strain energy form plus its mass
coefficient times the mass form. -/
noncomputable def dampingForm (M : FeModel) (P : Nat → Dyn ℝ) : List ℝ → List ℝ → (Nat → ℝ) → (Nat → ℝ) → ℝ :=
  meshForm M fun k Z X U W => (P k).rayB * cellEnergy (P k).el Z X U W + (P k).rayA * cellMass (P k) Z X U W

/-- Work of the stress of the reference strains. -/
noncomputable def preWork (M : FeModel) (P : Nat → Elastostatic ℝ) (z x : List ℝ) (w : Nat → ℝ) : ℝ :=
  ∑ k ∈ range M.domains.length, ∑ c ∈ range (M.size (M.part k)),
    cellPre (P k) (M.cellZ z (gcell (M.part k) c)) (M.cellX x (gcell (M.part k) c))
      (dofs M w (gcell (M.part k) c))

/-- Work of the body loads. -/
noncomputable def loadWork (M : FeModel) (loads : Nat → List (BodyLoad ℝ)) (z : List ℝ) (w : Nat → ℝ) : ℝ :=
  ∑ k ∈ range M.domains.length, ∑ c ∈ range (M.size (M.part k)),
    ((loads k).map fun L => cellLoad L M.dim M.ndof c (gcell (M.part k) c) (M.cellZ z (gcell (M.part k) c))
      (dofs M w (gcell (M.part k) c))).sum

section
variable (P : Dyn ℝ)

theorem dynPoint_lin (a b : ℝ) (U V : Nat → ℝ) (i : Nat) :
    P.point (fun l => a * U l + b * V l) i = a * P.point U i + b * P.point V i := by
  unfold Dyn.point interp
  rw [mul_sum, mul_sum, ← sum_add_distrib]
  exact sum_congr rfl fun n _ => by ring

theorem cellMass_lin (Z : Nat → ℝ) (X : Nat → Nat → ℝ) (a b : ℝ) (U V W : Nat → ℝ) :
    cellMass P Z X (fun l => a * U l + b * V l) W = a * cellMass P Z X U W + b * cellMass P Z X V W := by
  unfold cellMass
  simp only [dynPoint_lin, add_mul, sum_add_distrib, mul_assoc, ← mul_sum]
  ring

theorem cellMass_symm (Z : Nat → ℝ) (X : Nat → Nat → ℝ) (U W : Nat → ℝ) :
    cellMass P Z X U W = cellMass P Z X W U := by
  unfold cellMass
  simp only [mul_comm (P.point U _)]

theorem cellMass_nonneg {Z : Nat → ℝ} {X : Nat → Nat → ℝ} (hw : 0 ≤ P.el.cubWeight)
    (hp : 0 ≤ P.el.pen (meanDensity (P.el.d + 1) Z)) (hr : 0 ≤ P.density) (U : Nat → ℝ) : 0 ≤ cellMass P Z X U U :=
  mul_nonneg (mul_nonneg (mul_nonneg (mul_nonneg (abs_nonneg _) hw) hp) hr)
    (sum_nonneg fun _ _ => mul_self_nonneg _)

variable {P}

theorem cellMass_congr {Z : Nat → ℝ} {X : Nat → Nat → ℝ} {U U' W W' : Nat → ℝ}
    (hU : ∀ l, l < (P.el.d + 1) * P.el.d → U l = U' l) (hW : ∀ l, l < (P.el.d + 1) * P.el.d → W l = W' l) :
    cellMass P Z X U W = cellMass P Z X U' W' := by
  unfold cellMass
  congr 1
  refine sum_congr rfl fun i hi => ?_
  rw [Dyn.point_congr hU (mem_range.1 hi), Dyn.point_congr hW (mem_range.1 hi)]

theorem cellEnergy_congr {P : Elastostatic ℝ} (hd : P.d = 1 ∨ P.d = 2 ∨ P.d = 3) {Z : Nat → ℝ} {X : Nat → Nat → ℝ}
    {U U' W W' : Nat → ℝ} (hU : ∀ l, l < (P.d + 1) * P.d → U l = U' l)
    (hW : ∀ l, l < (P.d + 1) * P.d → W l = W' l) : cellEnergy P Z X U W = cellEnergy P Z X U' W' := by
  unfold cellEnergy
  congr 1
  refine sum_congr rfl fun t _ => sum_congr rfl fun s _ => ?_
  rw [strainForm_congr hd hU (fun _ _ _ _ => rfl) s, strainForm_congr hd hW (fun _ _ _ _ => rfl) t]

theorem cellEnergy_symm {P : Elastostatic ℝ}
    (hs : ∀ t s, t < numVoigt P.d → s < numVoigt P.d → P.stiff t s = P.stiff s t) (Z : Nat → ℝ)
    (X : Nat → Nat → ℝ) (U W : Nat → ℝ) : cellEnergy P Z X U W = cellEnergy P Z X W U := by
  unfold cellEnergy
  congr 1
  rw [sum_comm]
  refine sum_congr rfl fun s h1 => sum_congr rfl fun t h2 => ?_
  rw [hs t s (mem_range.1 h2) (mem_range.1 h1)]
  ring

theorem cellEnergy_nonneg {P : Elastostatic ℝ} {Z : Nat → ℝ} {X : Nat → Nat → ℝ} (hw : 0 ≤ P.cubWeight)
    (hp : 0 ≤ P.pen (meanDensity (P.d + 1) Z)) (hC : ∀ e, 0 ≤ voigtEnergy P e) (U : Nat → ℝ) :
    0 ≤ cellEnergy P Z X U U := by
  rw [cellEnergy_self, volForm_eq]
  exact mul_nonneg (mul_nonneg (mul_nonneg (abs_nonneg _) hw) hp) (hC _)

/-- Work of what a cell adds to the residual. -/
theorem row_work (hd : P.el.d = 1 ∨ P.el.d = 2 ∨ P.el.d = 3) (hL : ∀ L ∈ P.el.bodyLoads, L.dof < P.el.d)
    (c gc : Nat) (U V A Z : Nat → ℝ) (X : Nat → Nat → ℝ) (W : Nat → ℝ) :
    ∑ l ∈ range ((P.el.d + 1) * P.el.d), P.row abs c gc U V A Z X l * W l =
      cellEnergy P.el Z X U W + (P.rayB * cellEnergy P.el Z X V W + P.rayA * cellMass P Z X V W) +
        cellMass P Z X A W - cellPre P.el Z X W -
        (P.el.bodyLoads.map fun L => cellLoad L P.el.d P.el.d c gc Z W).sum := by
  have e1 := stressRow_work hd le_rfl (P.el.volForm abs X) (P.stressForm U V Z X) (gradForm P.el.d X) W
  have e2 := contentRow_work (d := P.el.d) (ndof := P.el.d) (m := P.el.d) (off := 0) (by omega) (at0 P.basis)
    (P.el.volForm abs X) (P.inertiaForm V A Z) W
  have e3 := loads_work (d := P.el.d) hL c gc Z W
  have h1 : P.el.volForm abs X * ∑ t ∈ range (numVoigt P.el.d), P.stressForm U V Z X t *
      voigtStrain P.el.d (fun n i => W (n * P.el.d + i)) (gradForm P.el.d X) t =
      cellEnergy P.el Z X U W + P.rayB * cellEnergy P.el Z X V W - cellPre P.el Z X W := by
    unfold cellEnergy cellPre
    simp only [mul_sum, ← sum_add_distrib, ← sum_sub_distrib]
    refine sum_congr rfl fun t _ => ?_
    unfold Dyn.stressForm Dyn.solidStress
    rw [show voigtStrain P.el.d (fun n i => W (n * P.el.d + i)) (gradForm P.el.d X) t = P.el.strainForm W X t from rfl,
      sum_mul, sum_mul, mul_sum]
    refine sum_congr rfl fun s _ => ?_
    ring
  have h2 : P.el.volForm abs X * ∑ i ∈ range P.el.d, P.inertiaForm V A Z i *
      interp (P.el.d + 1) (at0 P.basis) (fun n => W (P.el.d * n + i + 0)) =
      P.rayA * cellMass P Z X V W + cellMass P Z X A W := by
    unfold cellMass
    simp only [mul_sum, ← sum_add_distrib]
    refine sum_congr rfl fun i _ => ?_
    unfold Dyn.inertiaForm
    rw [show interp (P.el.d + 1) (at0 P.basis) (fun n => W (P.el.d * n + i + 0)) = P.point W i from rfl]
    ring
  have e : ∀ l, P.row abs c gc U V A Z X l * W l =
      stressRow P.el.d P.el.d (P.el.volForm abs X) (P.stressForm U V Z X) (gradForm P.el.d X) l * W l +
      contentRow P.el.d P.el.d P.el.d 0 (at0 P.basis) (P.el.volForm abs X) (P.inertiaForm V A Z) l * W l +
      (P.el.bodyLoads.map fun L => L.row P.el.d P.el.d c gc Z (-1)).sum l * W l := by
    intro l
    rw [← add_mul, ← add_mul]
    rfl
  rw [sum_congr rfl fun l _ => e l, sum_add_distrib, sum_add_distrib, e1, e2, e3, h1, h2]
  ring

end

end Plato.Dyn
