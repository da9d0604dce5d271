import Verif.Plast.Scaling
import Mathlib.Analysis.SpecialFunctions.Pow.Real

/-!
# C74: the unit of length
-/

namespace Plato.Plast
open Finset Plato Plato.Mech Plato.Thermal Plato.J2 Plato.Dyn
open Plato.Bnd hiding Add

/-! ## Specification -/

/-- Coordinates of a cell in another unit. -/
def grown (a : ℝ) (X : Nat → Nat → ℝ) (n k : Nat) : ℝ := a * X n k

/-- Displacements are lengths, temperature and pressure are not. -/
def Plast.lengths (P : Plast ℝ) (a : ℝ) (i : Nat) : ℝ := if i < P.d then a else 1

/-- Conductivity relates heat through an area to a gradient: in the unit of the residual, heat per volume times
length, it takes the square of the factor. -/
def Plast.inUnit (P : Plast ℝ) (a : ℝ) : Plast ℝ := { P with cond := a ^ 2 * P.cond }

/-- All arguments in another unit of length. -/
noncomputable def inUnit (P : Plast ℝ) (a : ℝ) (A : GArgs ℝ) : GArgs ℝ where
  loc := { A.loc with u := scaledList P.ndof (P.lengths a) A.loc.u, up := scaledList P.ndof (P.lengths a) A.loc.up,
                      x := A.loc.x.map fun b => a * b }
  n := A.n.map fun b => b / a

/-- `std::pow(volume, 2/3)`, ComputeStabilization.hpp:98 and 134. -/
noncomputable def twoThirds (v : ℝ) : ℝ := v ^ (2 / 3 : ℝ)

/-- Work of the stabilisation in a cell, for the square `h2` of the size of the cell. -/
noncomputable def Plast.stabWork (P : Plast ℝ) (h2 : ℝ) (U N Z : Nat → ℝ) (X : Nat → Nat → ℝ) (W : Nat → ℝ) : ℝ :=
  |detForm P.d X| * P.cubWeight * (P.penOf Z * (h2 / (2 * P.mat.shear)) * ∑ k ∈ range P.d,
    (P.kappa * P.gradOf P.poff U X k - P.projOf N k) * (P.kappa * P.gradOf P.poff W X k))

/-! ## Cells -/

theorem detForm_grown {d : Nat} (hd : d = 2 ∨ d = 3) (a : ℝ) (X : Nat → Nat → ℝ) :
    detForm d (grown a X) = a ^ d * detForm d X := by
  rcases hd with rfl | rfl
  · simp only [detForm, edge, grown]; ring
  · simp only [detForm, edge, grown, detj3]; ring

theorem cofForm_grown {d : Nat} (hd : d = 2 ∨ d = 3) (a : ℝ) (X : Nat → Nat → ℝ) (n k : Nat) :
    cofForm d (grown a X) n k * a = a ^ d * cofForm d X n k := by
  rcases hd with rfl | rfl
  · unfold cofForm; split <;> first | (exfalso; omega) | (simp only [edge, grown]; ring)
  · unfold cofForm; split <;> first | (exfalso; omega) | (simp only [edge, grown]; ring)

theorem gradForm_grown {d : Nat} (hd : d = 2 ∨ d = 3) {a : ℝ} (ha : a ≠ 0) (X : Nat → Nat → ℝ) (n k : Nat) :
    gradForm d (grown a X) n k = gradForm d X n k / a := by
  have e : ∀ m, cofForm d (grown a X) m k / detForm d (grown a X) = cofForm d X m k / detForm d X / a := by
    intro m
    have h := cofForm_grown hd a X m k
    rw [detForm_grown hd, show cofForm d (grown a X) m k = a ^ d * cofForm d X m k / a by rw [← h]; field_simp]
    by_cases h0 : detForm d X = 0
    · simp [h0]
    · field_simp
  unfold gradForm
  simp only [e]
  split
  · rfl
  · rw [← sum_div, neg_div]

section Cell
variable {P : Plast ℝ} (hd : P.d = 2 ∨ P.d = 3) {a : ℝ} (ha : a ≠ 0)

theorem lengths_lt {i : Nat} (hi : i < P.d) : P.lengths a i = a := if_pos hi

theorem lengths_ge {i : Nat} (hi : P.d ≤ i) : P.lengths a i = 1 := if_neg (by omega)

theorem Plast.le_poff : P.d ≤ P.poff := by unfold Plast.poff; split <;> omega

include hd ha in
theorem gradOf_grown {off : Nat} (ho : off < P.ndof) (hge : P.d ≤ off) (U : Nat → ℝ) (X : Nat → Nat → ℝ) (k : Nat) :
    P.gradOf off (scaled P.ndof (P.lengths a) U) (grown a X) k = P.gradOf off U X k / a := by
  rw [gradOf_scaled ho, lengths_ge hge, one_mul]
  unfold Plast.gradOf scalarField
  rw [sum_div]
  exact sum_congr rfl fun n _ => by rw [gradForm_grown hd ha, mul_div_assoc]

include hd ha in
theorem smallStrain_grown (U : Nat → ℝ) (X : Nat → Nat → ℝ) :
    smallStrain P.d P.ndof (scaled P.ndof (P.lengths a) U) (grown a X) = smallStrain P.d P.ndof U X := by
  have hle := P.le_ndof
  have e : ∀ i k, i < P.d → fieldGrad P.d (fun n k => scaled P.ndof (P.lengths a) U (n * P.ndof + k))
      (gradForm P.d (grown a X)) i k = fieldGrad P.d (fun n k => U (n * P.ndof + k)) (gradForm P.d X) i k := by
    intro i k hi
    unfold fieldGrad
    refine sum_congr rfl fun n _ => ?_
    dsimp only
    rw [scaled_node (hi.trans_le hle), lengths_lt hi, gradForm_grown hd ha]
    field_simp
  funext i j
  unfold smallStrain
  by_cases h : i.1 < P.d ∧ j.1 < P.d
  · rw [if_pos h, if_pos h, e _ _ h.1, e _ _ h.2]
  · rw [if_neg h, if_neg h]

theorem therm_grown (U : Nat → ℝ) : P.mat.therm (scaled P.ndof (P.lengths a) U) = P.mat.therm U := by
  unfold J2.therm
  by_cases hT : P.mat.thermal = true
  · rw [if_pos hT, if_pos hT]
    have hdn : P.d < P.ndof := by unfold Plast.ndof J2.ndof; rw [if_pos hT]; exact Nat.lt_add_of_pos_right (by omega)
    suffices e : P.mat.temp (scaled P.ndof (P.lengths a) U) = P.mat.temp U by rw [e]
    unfold J2.temp
    show (∑ n ∈ range (P.d + 1), scaled P.ndof (P.lengths a) U (n * P.ndof + P.d) * at0 P.mat.basis n) * _ =
      (∑ n ∈ range (P.d + 1), U (n * P.ndof + P.d) * at0 P.mat.basis n) * _
    congr 1
    exact sum_congr rfl fun n _ => by rw [scaled_node hdn, lengths_ge le_rfl, one_mul]
  · rw [if_neg hT, if_neg hT]

include hd ha in
/-- Work in a cell in another unit: as before, times the factor of the volume, but for the power of the volume. -/
theorem cellWork_grown (pow23 : ℝ → ℝ) (U C N Z : Nat → ℝ) (X : Nat → Nat → ℝ) (W : Nat → ℝ) :
    (P.inUnit a).cellWork pow23 (scaled P.ndof (P.lengths a) U) C (fun l => N l / a) Z (grown a X)
        (scaled P.ndof (P.lengths a) W) =
      |a| ^ P.d * P.cellWork (fun v => pow23 (|a| ^ P.d * v) / a ^ 2) U C N Z X W := by
  have hp := P.poff_lt
  have hge := P.le_poff
  have e1 : (P.inUnit a).stressDev (scaled P.ndof (P.lengths a) U) C Z (grown a X) = P.stressDev U C Z X := by
    unfold Plast.stressDev J2.mechStrain
    show _ • deviator (smallStrain P.d P.ndof (scaled P.ndof (P.lengths a) U) (grown a X) -
      P.mat.therm (scaled P.ndof (P.lengths a) U) • 1 - _) = _
    rw [therm_grown, smallStrain_grown hd ha]
    rfl
  have v1 : P.valueOf P.poff (scaled P.ndof (P.lengths a) U) = P.valueOf P.poff U := by
    rw [valueOf_scaled hp, lengths_ge hge, one_mul]
  have v2 : P.valueOf P.poff (scaled P.ndof (P.lengths a) W) = P.valueOf P.poff W := by
    rw [valueOf_scaled hp, lengths_ge hge, one_mul]
  have n1 : ∀ k, P.projOf (fun l => N l / a) k = P.projOf N k / a := by
    intro k
    unfold Plast.projOf interp
    rw [sum_div]
    exact sum_congr rfl fun n _ => by dsimp only; rw [mul_div_assoc]
  unfold Plast.cellWork
  dsimp only
  rw [e1]
  show |detForm P.d (grown a X)| * P.cubWeight * (dot _ (smallStrain P.d P.ndof (scaled P.ndof (P.lengths a) W) (grown a X))
    + P.kappa * P.valueOf P.poff (scaled P.ndof (P.lengths a) U) *
      (smallStrain P.d P.ndof (scaled P.ndof (P.lengths a) W) (grown a X)).trace
    + P.kappa * P.valueOf P.poff (scaled P.ndof (P.lengths a) W) *
      ((smallStrain P.d P.ndof (scaled P.ndof (P.lengths a) U) (grown a X)).trace
        - (if P.mat.thermal = true then 3 * P.mat.alpha *
            (P.mat.tscale * P.valueOf P.d (scaled P.ndof (P.lengths a) U) - P.mat.tref) else 0)
        - P.kappa * P.valueOf P.poff (scaled P.ndof (P.lengths a) U) / (P.penOf Z * P.bulk))
    - P.penOf Z * (pow23 (|detForm P.d (grown a X)| * P.cubWeight) / (2 * P.mat.shear)) * ∑ k ∈ range P.d,
        (P.kappa * P.gradOf P.poff (scaled P.ndof (P.lengths a) U) (grown a X) k - P.projOf (fun l => N l / a) k) *
          (P.kappa * P.gradOf P.poff (scaled P.ndof (P.lengths a) W) (grown a X) k)
    + if P.mat.thermal = true then P.penOf Z * (a ^ 2 * P.cond) * P.mat.tscale * ∑ k ∈ range P.d,
        P.gradOf P.d (scaled P.ndof (P.lengths a) U) (grown a X) k *
          P.gradOf P.d (scaled P.ndof (P.lengths a) W) (grown a X) k else 0) = _
  rw [smallStrain_grown hd ha, smallStrain_grown hd ha, v1, v2]
  simp only [gradOf_grown hd ha hp hge, n1]
  rw [detForm_grown hd, abs_mul, abs_pow]
  have es : ∑ k ∈ range P.d, (P.kappa * (P.gradOf P.poff U X k / a) - P.projOf N k / a) *
      (P.kappa * (P.gradOf P.poff W X k / a)) = (∑ k ∈ range P.d, (P.kappa * P.gradOf P.poff U X k - P.projOf N k) *
        (P.kappa * P.gradOf P.poff W X k)) / a ^ 2 := by
    rw [sum_div]
    exact sum_congr rfl fun k _ => by field_simp
  rw [es, mul_assoc (|a| ^ P.d) |detForm P.d X| P.cubWeight]
  by_cases hT : P.mat.thermal = true
  · have hdn : P.d < P.ndof := by unfold Plast.ndof J2.ndof; rw [if_pos hT]; exact Nat.lt_add_of_pos_right (by omega)
    simp only [if_pos hT, gradOf_grown hd ha hdn le_rfl, valueOf_scaled hdn, lengths_ge (P := P) (a := a) le_rfl, one_mul]
    have et : ∑ k ∈ range P.d, P.gradOf P.d U X k / a * (P.gradOf P.d W X k / a) =
        (∑ k ∈ range P.d, P.gradOf P.d U X k * P.gradOf P.d W X k) / a ^ 2 := by
      rw [sum_div]
      exact sum_congr rfl fun k _ => by field_simp
    rw [et]
    field_simp
  · simp only [if_neg hT]
    field_simp

/-- What the power of the volume does to the work. -/
theorem cellWork_pow (p p' : ℝ → ℝ) (U C N Z : Nat → ℝ) (X : Nat → Nat → ℝ) (W : Nat → ℝ) :
    P.cellWork p' U C N Z X W = P.cellWork p U C N Z X W -
      P.stabWork (p' (|detForm P.d X| * P.cubWeight) - p (|detForm P.d X| * P.cubWeight)) U N Z X W := by
  unfold Plast.cellWork Plast.stabWork
  dsimp only
  rw [sub_div]
  ring

end Cell

/-! ## Meshes -/

/-- No loads. -/
structure Unloaded (M : FeModel) (P : Nat → Plast ℝ) (B : Loads) : Prop where
  body : ∀ k, k < M.domains.length → (P k).bodyLoads = []
  mech : B.mech = []
  heat : B.heat = []

/-- Work of the stabilisation in all cells, for a function of the volume. -/
noncomputable def meshStab (M : FeModel) (P : Nat → Plast ℝ) (h2 : ℝ → ℝ) (A : GArgs ℝ) (w : Nat → ℝ) : ℝ :=
  ∑ k ∈ range M.domains.length, ∑ c ∈ range (dom M k).length,
    (P k).stabWork (h2 (|detForm M.dim (gNumbers M A (atN (dom M k) c)).loc.x| * (P k).cubWeight))
      (gNumbers M A (atN (dom M k) c)).loc.u (gNumbers M A (atN (dom M k) c)).n (gNumbers M A (atN (dom M k) c)).loc.z
      (gNumbers M A (atN (dom M k) c)).loc.x (dofs M w (atN (dom M k) c))

theorem at0_map {f : ℝ → ℝ} (h0 : f 0 = 0) (l : List ℝ) (q : Nat) : at0 (l.map f) q = f (at0 l q) := by
  unfold at0
  rw [List.getElem?_map]
  cases h : l[q]? <;> simp [h0]

section Mesh
variable {M : FeModel} (hM : M.Ok) {P : Nat → Plast ℝ} (h : POk M P) {a : ℝ} (ha : a ≠ 0)

theorem inUnit_pok (h : POk M P) : POk M fun k => (P k).inUnit a :=
  ⟨⟨h.j.dim, h.j.d, h.j.ndof, h.j.basis⟩, h.loads⟩

theorem inUnit_loads {B : Loads} (hB : LoadsOk M (P 0) B) : LoadsOk M ((P 0).inUnit a) B :=
  ⟨hB.mech, hB.heat, hB.cub, hB.orders, hB.ordersT, hB.pressure⟩

theorem inUnit_ok {A : GArgs ℝ} {nl : Nat} (hA : A.Ok M nl) : (inUnit (P 0) a A).Ok M nl := by
  refine ⟨⟨?_, ?_, hA.loc.c, hA.loc.cp, hA.loc.z, ?_⟩, ?_⟩
  · simpa [inUnit, scaledList] using hA.loc.u
  · simpa [inUnit, scaledList] using hA.loc.up
  · simpa [inUnit] using hA.loc.x
  · simpa [inUnit] using hA.n

include hM h in
theorem numbers_inUnit (A : GArgs ℝ) (cell : Nat) :
    (gNumbers M (inUnit (P 0) a A) cell).loc.u = scaled M.ndof ((P 0).lengths a) (gNumbers M A cell).loc.u ∧
    (gNumbers M (inUnit (P 0) a A) cell).loc.x = grown a (gNumbers M A cell).loc.x ∧
    (gNumbers M (inUnit (P 0) a A) cell).n = fun l => (gNumbers M A cell).n l / a := by
  have h0 : 0 < M.domains.length := List.length_pos_of_ne_nil hM.some_domain
  refine ⟨?_, ?_, ?_⟩
  · funext l
    show at0 (scaledList (P 0).ndof ((P 0).lengths a) A.loc.u) (cellDof M.npc M.ndof M.c2n cell l) = _
    rw [at0_scaledList, show (P 0).ndof = M.ndof from h.j.ndof 0 h0]
    exact congrFun (dofs_scaled M ((P 0).lengths a) (at0 A.loc.u) cell) l
  · funext n k
    exact at0_map (f := fun b => a * b) (mul_zero a) A.loc.x _
  · funext l
    exact at0_map (f := fun b => b / a) (zero_div a) A.n _

theorem no_loads {B : Loads} (hU : Unloaded M P B) (A : GArgs ℝ) (w : Nat → ℝ) :
    bodyWork M P A w = 0 ∧ boundaryWork M P B A w = 0 := by
  constructor
  · unfold bodyWork
    exact sum_eq_zero fun k hk => sum_eq_zero fun c _ => by rw [hU.body k (mem_range.1 hk)]; simp
  · unfold boundaryWork boundaryForce
    rw [hU.mech, hU.heat]
    simp [bndForce]

include hM h ha in
/-- Work in all cells in another unit. -/
theorem innerWork_grown (A : GArgs ℝ) (w : Nat → ℝ) :
    innerWork M (fun k => (P k).inUnit a) twoThirds (inUnit (P 0) a A) (scaled M.ndof ((P 0).lengths a) w) =
      |a| ^ M.dim * (innerWork M P twoThirds A w -
        meshStab M P (fun v => twoThirds (|a| ^ M.dim * v) / a ^ 2 - twoThirds v) A w) := by
  have h0 : 0 < M.domains.length := List.length_pos_of_ne_nil hM.some_domain
  unfold innerWork meshStab
  rw [← sum_sub_distrib, mul_sum]
  refine sum_congr rfl fun k hk => ?_
  rw [← sum_sub_distrib, mul_sum]
  refine sum_congr rfl fun c _ => ?_
  have hk' := mem_range.1 hk
  have hdk : (P k).d = M.dim := h.j.d k hk'
  have hnk : (P k).ndof = M.ndof := h.j.ndof k hk'
  have hl : (P 0).lengths a = (P k).lengths a := by
    funext i
    unfold Plast.lengths
    rw [show (P 0).d = M.dim from h.j.d 0 h0, hdk]
  have hd : (P k).d = 2 ∨ (P k).d = 3 := by rw [hdk]; exact h.j.dim
  obtain ⟨e1, e2, e3⟩ := numbers_inUnit hM h (a := a) A (atN (dom M k) c)
  rw [e1, e2, e3, dofs_scaled, hl, ← hnk]
  refine (cellWork_grown hd ha twoThirds _ _ _ _ _ _).trans ?_
  rw [cellWork_pow twoThirds, hdk]
  rfl

/-- Two thirds of three dimensions are two. -/
theorem twoThirds_space {v : ℝ} (hv : 0 ≤ v) (a : ℝ) : twoThirds (|a| ^ 3 * v) = a ^ 2 * twoThirds v := by
  unfold twoThirds
  rw [Real.mul_rpow (by positivity) hv, ← Real.rpow_natCast, ← Real.rpow_mul (abs_nonneg a)]
  norm_num

include hM h ha in
/-- **C74** (three dimensions): the problem does not depend on the unit of length.  With coordinates and displacements
multiplied by a factor and the projected gradient divided by it, forces are multiplied with its square and the
equations of the pressure and temperature with its third power. -/
theorem C74_space (h3 : M.dim = 3) (hcub : ∀ k, k < M.domains.length → 0 ≤ (P k).cubWeight) {B : Loads}
    (hB : LoadsOk M (P 0) B) (hU : Unloaded M P B) (init init' : Nat → Nat → Nat → Nat) {eR eR' : Nat → Nat → List Nat}
    (he : EvSched M eR) (he' : EvSched M eR') {A : GArgs ℝ} (hA : A.Ok M (localDofs M.dim)) {sch sch' : Nat → Nat → List Nat}
    (hs : WsSched M sch) (hadd : AddSched M (M.npc * M.ndof) sch) (hs' : WsSched M sch')
    (hadd' : AddSched M (M.npc * M.ndof) sch') :
    (plastResidual M P twoThirds B init eR sch A).Sat fun r =>
      (plastResidual M (fun k => (P k).inUnit a) twoThirds B init' eR' sch' (inUnit (P 0) a A)).Sat fun r' =>
        r'.length = r.length ∧ ∀ q, at0 r' q = (if q % M.ndof < M.dim then |a| ^ 3 / a else |a| ^ 3) * at0 r q := by
  have h0 : 0 < M.domains.length := List.length_pos_of_ne_nil hM.some_domain
  refine (C71_work hM h twoThirds hB init he hA hs hadd).mono ?_
  rintro r ⟨hl, hr⟩
  refine (C71_work hM (inUnit_pok h) twoThirds (inUnit_loads hB) init' he' (inUnit_ok (P := P) hA) hs' hadd').mono ?_
  rintro r' ⟨hl', hr'⟩
  refine ⟨hl'.trans hl.symm, fun q => ?_⟩
  by_cases hq : q < M.nn * M.ndof
  · have e : ∀ w : Nat → ℝ, ∑ q ∈ range (M.nn * M.ndof), at0 r' q * scaled M.ndof ((P 0).lengths a) w q =
        |a| ^ 3 * ∑ q ∈ range (M.nn * M.ndof), at0 r q * w q := by
      intro w
      have hU' : Unloaded M (fun k => (P k).inUnit a) B := ⟨hU.body, hU.mech, hU.heat⟩
      rw [hr w, hr' _, (no_loads hU _ _).1, (no_loads hU _ _).2, (no_loads hU' _ _).1, (no_loads hU' _ _).2,
        innerWork_grown hM h ha, sub_zero, sub_zero, sub_zero, sub_zero, h3]
      congr 1
      rw [sub_eq_self]
      unfold meshStab
      refine sum_eq_zero fun k hk => sum_eq_zero fun c _ => ?_
      dsimp only
      rw [twoThirds_space (mul_nonneg (abs_nonneg _) (hcub k (mem_range.1 hk)))]
      unfold Plast.stabWork
      rw [mul_div_cancel_left₀ _ (pow_ne_zero 2 ha), sub_self]
      ring
    have := e (Pi.single q 1)
    unfold scaled at this
    rw [sum_eq_single q (fun b _ hb => by rw [Pi.single_eq_of_ne hb, mul_zero, mul_zero])
        (fun hn => absurd (mem_range.2 hq) hn),
      sum_eq_single q (fun b _ hb => by rw [Pi.single_eq_of_ne hb, mul_zero]) (fun hn => absurd (mem_range.2 hq) hn),
      Pi.single_eq_same, mul_one, mul_one] at this
    unfold Plast.lengths at this
    rw [show (P 0).d = M.dim from h.j.d 0 h0] at this
    by_cases hi : q % M.ndof < M.dim
    · rw [if_pos hi] at this ⊢
      rw [div_mul_eq_mul_div, ← this, mul_div_cancel_right₀ _ ha]
    · rw [if_neg hi] at this ⊢
      rw [← this, mul_one]
  · rw [at0_out (by omega), at0_out (by omega), mul_zero]

include hM h ha in
/-- **C74** (two dimensions): what the work in another unit has too much. -/
theorem C74_plane_partial (h2 : M.dim = 2) (hcub : ∀ k, k < M.domains.length → 0 ≤ (P k).cubWeight) {B : Loads}
    (hB : LoadsOk M (P 0) B) (hU : Unloaded M P B) (init init' : Nat → Nat → Nat → Nat) {eR eR' : Nat → Nat → List Nat}
    (he : EvSched M eR) (he' : EvSched M eR') {A : GArgs ℝ} (hA : A.Ok M (localDofs M.dim)) {sch sch' : Nat → Nat → List Nat}
    (hs : WsSched M sch) (hadd : AddSched M (M.npc * M.ndof) sch) (hs' : WsSched M sch')
    (hadd' : AddSched M (M.npc * M.ndof) sch') :
    (plastResidual M P twoThirds B init eR sch A).Sat fun r =>
      (plastResidual M (fun k => (P k).inUnit a) twoThirds B init' eR' sch' (inUnit (P 0) a A)).Sat fun r' => ∀ w : Nat → ℝ,
        ∑ q ∈ range (M.nn * M.ndof), at0 r' q * scaled M.ndof ((P 0).lengths a) w q =
          a ^ 2 * (∑ q ∈ range (M.nn * M.ndof), at0 r q * w q - (|a| ^ (-(2 / 3) : ℝ) - 1) * meshStab M P twoThirds A w) := by
  refine (C71_work hM h twoThirds hB init he hA hs hadd).mono ?_
  rintro r ⟨hl, hr⟩
  refine (C71_work hM (inUnit_pok h) twoThirds (inUnit_loads hB) init' he' (inUnit_ok (P := P) hA) hs' hadd').mono ?_
  rintro r' ⟨hl', hr'⟩ w
  have hU' : Unloaded M (fun k => (P k).inUnit a) B := ⟨hU.body, hU.mech, hU.heat⟩
  rw [hr w, hr' _, (no_loads hU _ _).1, (no_loads hU _ _).2, (no_loads hU' _ _).1, (no_loads hU' _ _).2,
    innerWork_grown hM h ha, sub_zero, sub_zero, sub_zero, sub_zero, h2, sq_abs]
  congr 2
  unfold meshStab
  rw [mul_sum]
  refine sum_congr rfl fun k hk => ?_
  rw [mul_sum]
  refine sum_congr rfl fun c _ => ?_
  dsimp only
  have hv := mul_nonneg (abs_nonneg (detForm M.dim (gNumbers M A (atN (dom M k) c)).loc.x)) (hcub k (mem_range.1 hk))
  have e : twoThirds (a ^ 2 * (|detForm M.dim (gNumbers M A (atN (dom M k) c)).loc.x| * (P k).cubWeight)) / a ^ 2 =
      |a| ^ (-(2 / 3) : ℝ) * twoThirds (|detForm M.dim (gNumbers M A (atN (dom M k) c)).loc.x| * (P k).cubWeight) := by
    have hp : 0 < |a| := abs_pos.2 ha
    unfold twoThirds
    rw [Real.mul_rpow (by positivity) hv, mul_div_right_comm]
    congr 1
    rw [← sq_abs a, ← Real.rpow_natCast, ← Real.rpow_mul hp.le, ← Real.rpow_sub hp]
    norm_num
  rw [e]
  unfold Plast.stabWork
  ring

end Mesh

end Plato.Plast
