import Verif.Plast.Props

/-!
# C71: balance of forces, moments, heat and volume; the stress in balance is admissible
-/

namespace Plato.Plast
open Finset Plato Plato.Mech Plato.Thermal Plato.J2 Plato.Dyn
open Plato.Tm (unknown sum_unknown)
open Plato.Bnd hiding Add

/-! ## Special virtual unknowns in a cell -/

theorem dofs_node {M : FeModel} (w : Nat → ℝ) (c n : Nat) {i : Nat} (hi : i < M.ndof) :
    dofs M w c (n * M.ndof + i) = w (M.ndof * cellNode M.npc M.c2n c n + i) := by
  have h0 : 0 < M.ndof := by omega
  unfold dofs cellDof
  rw [show (n * M.ndof + i) / M.ndof = n by
    rw [Nat.mul_comm, Nat.mul_add_div h0, Nat.div_eq_of_lt hi, Nat.add_zero],
    show (n * M.ndof + i) % M.ndof = i by rw [Nat.mul_comm, Nat.mul_add_mod, Nat.mod_eq_of_lt hi]]

theorem smallStrain_affine {d ndof : Nat} (hd : d = 2 ∨ d = 3) {X : Nat → Nat → ℝ} (hdet : detForm d X ≠ 0) {U b : Nat → ℝ}
    {A : Nat → Nat → ℝ} (hU : ∀ n i, n < d + 1 → i < d → U (n * ndof + i) = b i + ∑ j ∈ range d, A i j * X n j)
    (i j : Fin 3) : smallStrain d ndof U X i j = if i.1 < d ∧ j.1 < d then (A i j + A j i) / 2 else 0 := by
  have hR := gradForm_reproduces (.inr hd) X (by rwa [← detForm_eq (.inr hd)])
  have hf : ∀ i k, i < d → k < d → fieldGrad d (fun n i => U (n * ndof + i)) (gradForm d X) i k = A i k := by
    intro i k hi hk
    have := hR (b i) (fun j => A i j) ⟨k, hk⟩
    rw [← show _ = A i k from this, fieldGrad, sum_range]
    refine sum_congr rfl fun n _ => ?_
    rw [hU n i n.2 hi, sum_range]
    rfl
  unfold smallStrain
  by_cases h : i.1 < d ∧ j.1 < d
  · rw [if_pos h, if_pos h, hf _ _ h.1 h.2, hf _ _ h.2 h.1]
  · rw [if_neg h, if_neg h]

/-- A field that is equal at all nodes has no gradient. -/
theorem gradOf_const {P : Plast ℝ} (hd : P.d = 2 ∨ P.d = 3) {X : Nat → Nat → ℝ} (hdet : detForm P.d X ≠ 0) {off : Nat}
    {U : Nat → ℝ} {b : ℝ} (hU : ∀ n, n < P.d + 1 → U (n * P.ndof + off) = b) {k : Nat} (hk : k < P.d) :
    P.gradOf off U X k = 0 := by
  have hR := gradForm_reproduces (.inr hd) X (by rwa [← detForm_eq (.inr hd)]) b (fun _ => 0) ⟨k, hk⟩
  unfold Plast.gradOf scalarField
  rw [← show _ = (0 : ℝ) from hR, sum_range]
  refine sum_congr rfl fun n _ => ?_
  dsimp only
  rw [hU n n.2]
  simp

theorem valueOf_const {P : Plast ℝ} {off : Nat} {U : Nat → ℝ} {b : ℝ}
    (hU : ∀ n, n < P.d + 1 → U (n * P.ndof + off) = b) :
    P.valueOf off U = (∑ n ∈ range (P.d + 1), at0 P.mat.basis n) * b := by
  unfold Plast.valueOf interp
  rw [sum_mul]
  refine sum_congr rfl fun n hn => ?_
  dsimp only
  rw [Nat.mul_comm P.ndof n, hU n (mem_range.1 hn)]

section Cell
variable {P : Plast ℝ} (hd : P.d = 2 ∨ P.d = 3) (pow23 : ℝ → ℝ) (U C N Z : Nat → ℝ) {X : Nat → Nat → ℝ}
  (hdet : detForm P.d X ≠ 0) {W : Nat → ℝ}
include hd hdet

theorem cellWork_rigid {b : Nat → ℝ} {S : Nat → Nat → ℝ} (hS : ∀ i j, S i j = -S j i)
    (hW : ∀ n i, n < P.d + 1 → i < P.d → W (n * P.ndof + i) = b i + ∑ j ∈ range P.d, S i j * X n j)
    (hW0 : ∀ n i, n < P.d + 1 → P.d ≤ i → i < P.ndof → W (n * P.ndof + i) = 0) : P.cellWork pow23 U C N Z X W = 0 := by
  have h1 : smallStrain P.d P.ndof W X = 0 := by
    ext i j
    rw [smallStrain_affine hd hdet hW, hS i j]
    simp
  have hp : P.d ≤ P.poff := by unfold Plast.poff; split <;> simp
  have h2 : P.valueOf P.poff W = 0 := by rw [valueOf_const fun n hn => hW0 n _ hn hp P.poff_lt, mul_zero]
  have h3 : ∀ k ∈ range P.d, P.gradOf P.poff W X k = 0 := fun k hk =>
    gradOf_const hd hdet (fun n hn => hW0 n _ hn hp P.poff_lt) (mem_range.1 hk)
  unfold Plast.cellWork
  simp only [h1, h2, Matrix.trace_zero, mul_zero, zero_mul, add_zero]
  rw [sum_eq_zero fun k hk => by rw [h3 k hk, mul_zero, mul_zero]]
  by_cases hT : P.mat.thermal = true
  · have hdn : P.d < P.ndof := by unfold Plast.ndof J2.ndof; rw [if_pos hT]; exact Nat.lt_add_of_pos_right (by omega)
    rw [if_pos hT, sum_eq_zero fun k hk => by
      rw [gradOf_const (U := W) hd hdet (fun n hn => hW0 n _ hn le_rfl hdn) (mem_range.1 hk), mul_zero]]
    simp [dot]
  · rw [if_neg hT]
    simp [dot]

theorem cellWork_heat (hT : P.mat.thermal = true) (hW : ∀ n, n < P.d + 1 → W (n * P.ndof + P.d) = 1)
    (hW0 : ∀ n i, n < P.d + 1 → i ≠ P.d → i < P.ndof → W (n * P.ndof + i) = 0) : P.cellWork pow23 U C N Z X W = 0 := by
  have hdn : P.d < P.ndof := by unfold Plast.ndof J2.ndof; rw [if_pos hT]; exact Nat.lt_add_of_pos_right (by omega)
  have hpo : P.poff = P.d + 1 := by unfold Plast.poff; rw [if_pos hT]
  have h1 : smallStrain P.d P.ndof W X = 0 := by
    ext i j
    rw [smallStrain_affine (b := fun _ => 0) (A := fun _ _ => 0) hd hdet fun n i hn hi => by
      rw [hW0 n i hn (by omega) (by omega)]; simp]
    simp
  have hp0 : ∀ n, n < P.d + 1 → W (n * P.ndof + P.poff) = 0 := fun n hn => hW0 n _ hn (by omega) P.poff_lt
  have h3 : ∀ k ∈ range P.d, P.gradOf P.poff W X k = 0 := fun k hk => gradOf_const hd hdet hp0 (mem_range.1 hk)
  unfold Plast.cellWork
  simp only [h1, valueOf_const hp0, Matrix.trace_zero, mul_zero, zero_mul, add_zero]
  rw [sum_eq_zero fun k hk => by rw [h3 k hk, mul_zero, mul_zero], if_pos hT, sum_eq_zero fun k hk => by
      rw [gradOf_const (U := W) hd hdet hW (mem_range.1 hk), mul_zero]]
  simp [dot]

theorem cellWork_volume (hb : ∑ n ∈ range (P.d + 1), at0 P.mat.basis n = 1)
    (hW : ∀ n, n < P.d + 1 → W (n * P.ndof + P.poff) = 1)
    (hW0 : ∀ n i, n < P.d + 1 → i ≠ P.poff → i < P.ndof → W (n * P.ndof + i) = 0) :
    P.cellWork pow23 U C N Z X W = |detForm P.d X| * P.cubWeight * (P.kappa * ((smallStrain P.d P.ndof U X).trace
        - (if P.mat.thermal then 3 * P.mat.alpha * (P.mat.tscale * P.valueOf P.d U - P.mat.tref) else 0)
        - P.kappa * P.valueOf P.poff U / (P.penOf Z * P.bulk))) := by
  have hp : P.d ≤ P.poff := by unfold Plast.poff; split <;> simp
  have h1 : smallStrain P.d P.ndof W X = 0 := by
    ext i j
    rw [smallStrain_affine (b := fun _ => 0) (A := fun _ _ => 0) hd hdet fun n i hn hi => by
      rw [hW0 n i hn (by omega) (hi.trans_le P.le_ndof)]; simp]
    simp
  have h3 : ∀ k ∈ range P.d, P.gradOf P.poff W X k = 0 := fun k hk => gradOf_const hd hdet hW (mem_range.1 hk)
  unfold Plast.cellWork
  simp only [h1, valueOf_const hW, hb, Matrix.trace_zero, mul_zero, mul_one]
  rw [sum_eq_zero (s := range P.d) (f := fun k => (P.kappa * P.gradOf P.poff U X k - P.projOf N k) * (P.kappa * P.gradOf P.poff W X k))
    fun k hk => by rw [h3 k hk, mul_zero, mul_zero]]
  by_cases hT : P.mat.thermal = true
  · have hdn : P.d < P.ndof := by unfold Plast.ndof J2.ndof; rw [if_pos hT]; exact Nat.lt_add_of_pos_right (by omega)
    have hpo : P.poff = P.d + 1 := by unfold Plast.poff; rw [if_pos hT]
    rw [if_pos hT, if_pos hT, sum_eq_zero (s := range P.d) (f := fun k => P.gradOf P.d U X k * P.gradOf P.d W X k) fun k hk => by
      rw [gradOf_const (U := W) hd hdet (fun n hn => hW0 n _ hn (by omega) hdn) (mem_range.1 hk), mul_zero]]
    simp [dot]
  · rw [if_neg hT, if_neg hT]
    simp [dot]

end Cell

/-! ## On the mesh -/

theorem inner_zero {M : FeModel} {P : Nat → Plast ℝ} (pow23 : ℝ → ℝ) {A : GArgs ℝ} {w : Nat → ℝ} (hc : ∀ k, k < M.domains.length → ∀ cell ∈ dom M k,
    (P k).cellWork pow23 (gNumbers M A cell).loc.u (gNumbers M A cell).loc.c
      (gNumbers M A cell).n (gNumbers M A cell).loc.z (gNumbers M A cell).loc.x (dofs M w cell) = 0) :
    innerWork M P pow23 A w = 0 :=
  sum_eq_zero fun k hk => sum_eq_zero fun _ hc' => hc k (mem_range.1 hk) _ (atN_mem (mem_range.1 hc'))

theorem unknown_dofs {M : FeModel} {i j : Nat} (cell n : Nat) (hj : j < M.ndof) :
    dofs M (unknown M.ndof i) cell (n * M.ndof + j) = if j = i then 1 else 0 := by
  rw [dofs_node _ _ _ hj]
  unfold unknown
  rw [Nat.mul_add_mod, Nat.mod_eq_of_lt hj]


section Mesh
variable {M : FeModel} (hM : M.Ok) {P : Nat → Plast ℝ} (h : POk M P) (pow23 : ℝ → ℝ) {B : Loads} (hB : LoadsOk M (P 0) B)
  (init : Nat → Nat → Nat → Nat) {eR : Nat → Nat → List Nat} (he : EvSched M eR) {A : GArgs ℝ}
  (hA : A.Ok M (localDofs M.dim)) {sch : Nat → Nat → List Nat} (hs : WsSched M sch) (ha : AddSched M (M.npc * M.ndof) sch)
include hM h hB he hA hs ha

/-- **C71, schedules**: the residual is the same for all orders of all loops. -/
theorem C71_schedule (init' : Nat → Nat → Nat → Nat) {eR' : Nat → Nat → List Nat} (he' : EvSched M eR')
    {sch' : Nat → Nat → List Nat} (hs' : WsSched M sch') (ha' : AddSched M (M.npc * M.ndof) sch') :
    plastResidual M P pow23 B init eR sch A = plastResidual M P pow23 B init' eR' sch' A := by
  obtain ⟨r, e, hl, hw⟩ := C71_work hM h pow23 hB init he hA hs ha
  obtain ⟨r', e', hl', hw'⟩ := C71_work hM h pow23 hB init' he' hA hs' ha'
  rw [e, e']
  congr 1
  refine ext_at0 (hl.trans hl'.symm) fun q hq => ?_
  have a := hw (Pi.single q 1)
  have a' := hw' (Pi.single q 1)
  rw [sum_eq_single q (by intro b _ hb; simp [hb]) (by intro hb; exact absurd (mem_range.2 (hl ▸ hq)) hb)] at a a'
  simpa using a.trans a'.symm

variable (hdet : EachCell M fun _ cell => detForm M.dim (gNumbers M A cell).loc.x ≠ 0)
include hdet

/-- **C71, balance of forces and moments**: on a virtual translation and rotation of the whole mesh the residual
does the work of the loads only, for all displacements, temperatures, pressures and plastic strains. -/
theorem C71_rigid {b : Nat → ℝ} {S : Nat → Nat → ℝ} (hS : ∀ i j, S i j = -S j i) {w : Nat → ℝ}
    (hw : ∀ n i, n < M.nn → i < M.dim → w (M.ndof * n + i) = b i + ∑ j ∈ range M.dim, S i j * at0 A.loc.x (M.dim * n + j))
    (hw0 : ∀ n i, n < M.nn → M.dim ≤ i → i < M.ndof → w (M.ndof * n + i) = 0) :
    (plastResidual M P pow23 B init eR sch A).Sat fun r =>
      ∑ q ∈ range (M.nn * M.ndof), at0 r q * w q = -bodyWork M P A w - boundaryWork M P B A w := by
  refine (C71_work hM h pow23 hB init he hA hs ha).mono ?_
  rintro r ⟨-, hr⟩
  rw [hr w, inner_zero pow23, zero_sub]
  intro k hk cell hcell
  have hdk : (P k).d = M.dim := h.j.d k hk
  have hnk : (P k).ndof = M.ndof := h.j.ndof k hk
  have hd : (P k).d = 2 ∨ (P k).d = 3 := by rw [hdk]; exact h.j.dim
  have hc := dom_lt hM hk hcell
  have hle : M.dim ≤ M.ndof := hdk ▸ hnk ▸ (P k).le_ndof
  refine cellWork_rigid hd pow23 _ _ _ _ (by rw [hdk]; exact hdet k hk cell hcell) hS (b := b) ?_ ?_
  · intro n i hn hi
    rw [hdk] at hn hi
    rw [hnk, hdk, dofs_node w cell n (hi.trans_le hle), hw _ i (hM.mesh.node_lt hc hn) hi]
    rfl
  · intro n i hn hi hi'
    rw [hdk] at hn hi
    rw [hnk] at hi' ⊢
    rw [dofs_node w cell n hi', hw0 _ i (hM.mesh.node_lt hc hn) hi hi']

/-- **C71, balance of forces**: the sum of the residual in a direction is minus the load in that direction. -/
theorem C71_forces {i : Nat} (hi : i < M.dim) :
    (plastResidual M P pow23 B init eR sch A).Sat fun r => ∑ n ∈ range M.nn, at0 r (M.ndof * n + i) =
      -bodyWork M P A (unknown M.ndof i) - boundaryWork M P B A (unknown M.ndof i) := by
  have h0 : 0 < M.domains.length := List.length_pos_of_ne_nil hM.some_domain
  have hle : M.dim ≤ M.ndof := (h.j.d 0 h0 : (P 0).d = M.dim) ▸ (h.j.ndof 0 h0 : (P 0).ndof = M.ndof) ▸ (P 0).le_ndof
  refine (C71_rigid hM h pow23 hB init he hA hs ha hdet (b := Pi.single i 1) (S := fun _ _ => 0) (fun _ _ => by simp)
    (w := unknown M.ndof i) ?_ ?_).mono fun r hr => by rw [← sum_unknown (hi.trans_le hle)]; exact hr
  · intro n j _ hj
    unfold unknown
    rw [Nat.mul_add_mod, Nat.mod_eq_of_lt (hj.trans_le hle)]
    by_cases e : j = i
    · subst e; simp
    · simp [e]
  · intro n j _ hj hj'
    unfold unknown
    rw [Nat.mul_add_mod, Nat.mod_eq_of_lt hj', if_neg (by omega)]

/-- **C71, balance of heat**: the sum of the equations of heat is minus the heat supplied. -/
theorem C71_heat (hT : ∀ k, k < M.domains.length → (P k).mat.thermal = true) :
    (plastResidual M P pow23 B init eR sch A).Sat fun r => ∑ n ∈ range M.nn, at0 r (M.ndof * n + M.dim) =
      -bodyWork M P A (unknown M.ndof M.dim) - boundaryWork M P B A (unknown M.ndof M.dim) := by
  have h0 : 0 < M.domains.length := List.length_pos_of_ne_nil hM.some_domain
  have hlt : M.dim < M.ndof := by
    rw [← (h.j.d 0 h0 : (P 0).d = M.dim), ← (h.j.ndof 0 h0 : (P 0).ndof = M.ndof)]
    show (P 0).d < (P 0).ndof
    unfold Plast.ndof J2.ndof
    rw [if_pos (hT 0 h0)]
    exact Nat.lt_add_of_pos_right (by omega)
  refine (C71_work hM h pow23 hB init he hA hs ha).mono ?_
  rintro r ⟨-, hr⟩
  rw [← sum_unknown hlt, hr, inner_zero pow23, zero_sub]
  intro k hk cell hcell
  have hdk : (P k).d = M.dim := h.j.d k hk
  have hnk : (P k).ndof = M.ndof := h.j.ndof k hk
  have hd : (P k).d = 2 ∨ (P k).d = 3 := by rw [hdk]; exact h.j.dim
  refine cellWork_heat hd pow23 _ _ _ _ (by rw [hdk]; exact hdet k hk cell hcell) (hT k hk) ?_ ?_
  · intro n _
    rw [hnk, hdk, unknown_dofs _ _ hlt, if_pos rfl]
  · intro n i _ hi hi'
    rw [hnk] at hi' ⊢
    rw [hdk] at hi
    rw [unknown_dofs _ _ hi', if_neg hi]

/-- **C71, balance of volume**: the sum of the equations of pressure is, in terms of the scaled pressure, the change
of volume of the body less that by temperature and that by the pressure on the bulk modulus. -/
theorem C71_volume {p : Nat} (hp : ∀ k, k < M.domains.length → (P k).poff = p)
    (hb : ∀ k, k < M.domains.length → ∑ n ∈ range (M.dim + 1), at0 (P k).mat.basis n = 1) :
    (plastResidual M P pow23 B init eR sch A).Sat fun r => ∑ n ∈ range M.nn, at0 r (M.ndof * n + p) =
      (∑ k ∈ range M.domains.length, ∑ c ∈ range (dom M k).length,
        let D := gNumbers M A (atN (dom M k) c)
        |detForm M.dim D.loc.x| * (P k).cubWeight * ((P k).kappa * ((smallStrain M.dim M.ndof D.loc.u D.loc.x).trace
          - (if (P k).mat.thermal then
              3 * (P k).mat.alpha * ((P k).mat.tscale * (P k).valueOf M.dim D.loc.u - (P k).mat.tref) else 0)
          - (P k).kappa * (P k).valueOf p D.loc.u / ((P k).penOf D.loc.z * (P k).bulk)))) -
      bodyWork M P A (unknown M.ndof p) - boundaryWork M P B A (unknown M.ndof p) := by
  have h0 : 0 < M.domains.length := List.length_pos_of_ne_nil hM.some_domain
  have hlt : p < M.ndof := by
    rw [← hp 0 h0, ← (h.j.ndof 0 h0 : (P 0).ndof = M.ndof)]
    exact (P 0).poff_lt
  refine (C71_work hM h pow23 hB init he hA hs ha).mono ?_
  rintro r ⟨-, hr⟩
  rw [← sum_unknown hlt, hr]
  congr 2
  unfold innerWork
  refine sum_congr rfl fun k hk => sum_congr rfl fun c hc => ?_
  have hk := mem_range.1 hk
  have hdk : (P k).d = M.dim := h.j.d k hk
  have hnk : (P k).ndof = M.ndof := h.j.ndof k hk
  have hd : (P k).d = 2 ∨ (P k).d = 3 := by rw [hdk]; exact h.j.dim
  rw [cellWork_volume hd pow23 _ _ _ _ (by rw [hdk]; exact hdet k hk _ (atN_mem (mem_range.1 hc)))
    (by rw [hdk]; exact hb k hk), hdk, hnk, hp k hk]
  · intro n _
    rw [hnk, hp k hk, unknown_dofs _ _ hlt, if_pos rfl]
  · intro n i _ hi hi'
    rw [hnk] at hi' ⊢
    rw [hp k hk] at hi
    rw [unknown_dofs _ _ hi', if_neg hi]

end Mesh

/-! ## The stress in balance and the yield function -/

section Stress
variable {M : FeModel} (hM : M.Ok) (hB : Blocks M) {P : Nat → Plast ℝ} (h : POk M P) (hc : Consts M fun k => (P k).mat)
  {A : Args ℝ} (hA : A.Ok M (localDofs M.dim)) (hm : EachCell M fun k cell => (matOf M (fun k => (P k).mat) A k cell).Ok)
  (hp : EachCell M fun _ cell => (stateOf M A.cp cell).Ok)
include hM hB h hc hA hm hp

/-- **C71, admissible stress**: when the penalty of the residual and that of the local equations agree in a cell,
the deviatoric stress whose work C71 counts, with the updated local state, does not exceed the yield stress by more
than the tolerance; where plastic strain grows it is on the yield surface. -/
theorem C71_admissible {ord : Nat → List Nat} (ho : OrdOk M ord) {sch : Nat → Nat → List Nat} (hs : LSched M sch) :
    (j2Update M (fun k => (P k).mat) ord sch A).Sat fun c => EachCell M fun k cell =>
      (P k).penOf (numbers M A cell).z = (P k).mat.penE (meanDensity (M.dim + 1) (numbers M A cell).z) →
      let σ := (P k).stressDev (numbers M A cell).u (numbers M { A with c := c } cell).c (numbers M A cell).z
        (numbers M A cell).x
      let q := stateOf M c cell
      let m := matOf M (fun k => (P k).mat) A k cell
      √(3 / 2) * nrm (σ - q.back) ≤ m.sy + m.K * q.acc + tolerance ∧
        (0 < q.inc → √(3 / 2) * nrm (σ - q.back) = m.sy + m.K * q.acc) := by
  refine (C63_update hM hB h.j hc hA hm hp ho hs).mono ?_
  rintro c ⟨-, c1, -⟩ k hk cell hcell hpen
  have hdk : (P k).d = M.dim := h.j.d k hk
  have hr := c1 k hk cell hcell
  dsimp only
  have e : (P k).stressDev (numbers M A cell).u (numbers M { A with c := c } cell).c (numbers M A cell).z
      (numbers M A cell).x - (stateOf M c cell).back =
      (matOf M (fun k => (P k).mat) A k cell).over (strainOf M (fun k => (P k).mat) A k cell) (stateOf M c cell) := by
    unfold Plast.stressDev Mat.over strainOf matOf J2.mat
    rw [hpen, hdk, show (P k).mat.d = M.dim from hdk]
    rfl
  have a := hr.admissible
  have b := hr.consistent
  unfold Mat.f at a b
  rw [← e] at a b
  exact ⟨by linarith, fun hi => by linarith [b hi]⟩

end Stress

end Plato.Plast
