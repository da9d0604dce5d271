import Verif.Mech.LoadFalse
import Verif.Simplex.Integral
import Mathlib.MeasureTheory.Function.Jacobian
import Mathlib.Analysis.Convex.Combination

/-!
# C49: resultant and moment of a body load
-/

namespace Plato.Mech
open Finset Plato MeasureTheory

/-! ## Integrals over a cell -/

/-- A cell: the convex hull of its nodes. -/
def cellSet (d : Nat) (X : Nat → Nat → ℝ) : Set (Fin d → ℝ) :=
  convexHull ℝ (Set.range fun (a : Fin (d + 1)) (k : Fin d) => X a k)

/-- The map from the reference cell. -/
def refMap (d : Nat) (X : Nat → Nat → ℝ) (ξ : Fin d → ℝ) (k : Fin d) : ℝ :=
  X d k + ∑ a : Fin d, (X a k - X d k) * ξ a

theorem refMap_eq (d : Nat) (X : Nat → Nat → ℝ) (ξ : Fin d → ℝ) :
    refMap d X ξ = ∑ a : Fin (d + 1), (Fin.snoc ξ (1 - ∑ a, ξ a) : Fin (d + 1) → ℝ) a • (fun k : Fin d => X a k) := by
  funext k
  rw [Fin.sum_univ_castSucc]
  simp only [Fin.snoc_castSucc, Fin.snoc_last, Pi.add_apply, Pi.smul_apply, smul_eq_mul, Fin.val_castSucc,
    Fin.val_last, Finset.sum_apply]
  unfold refMap
  simp only [sub_mul, sum_sub_distrib, sum_mul, mul_comm (X _ _), one_mul]
  ring

theorem cellSet_eq (d : Nat) (X : Nat → Nat → ℝ) : cellSet d X = refMap d X '' simplexSet d 1 := by
  apply Set.Subset.antisymm
  · refine convexHull_min ?_ ?_
    · rintro _ ⟨a, rfl⟩
      refine Fin.lastCases ?_ (fun a => ?_) a
      · refine ⟨0, ⟨fun _ => le_rfl, by simp⟩, ?_⟩
        funext k
        simp [refMap]
      · refine ⟨Pi.single a 1, ⟨fun i => ?_, ?_⟩, ?_⟩
        · by_cases h : i = a
          · subst h; simp
          · simp [Pi.single_eq_of_ne h]
        · rw [sum_pi_single']; simp
        · funext k
          unfold refMap
          rw [sum_eq_single a]
          · simp
          · intro b _ hb; rw [Pi.single_eq_of_ne hb, mul_zero]
          · simp
    · rintro _ ⟨ξ, ⟨hξ, hξ1⟩, rfl⟩ _ ⟨η, ⟨hη, hη1⟩, rfl⟩ s t hs ht hst
      refine ⟨s • ξ + t • η, ⟨fun i => ?_, ?_⟩, ?_⟩
      · exact add_nonneg (mul_nonneg hs (hξ i)) (mul_nonneg ht (hη i))
      · simp only [Pi.add_apply, Pi.smul_apply, smul_eq_mul, sum_add_distrib, ← mul_sum]
        nlinarith
      · funext k
        simp only [refMap, Pi.add_apply, Pi.smul_apply, smul_eq_mul, mul_add, sum_add_distrib,
          mul_left_comm _ s, mul_left_comm _ t, ← mul_sum]
        have : X d k = s * X d k + t * X d k := by rw [← add_mul, hst, one_mul]
        linarith
  · rintro _ ⟨ξ, ⟨hξ, hξ1⟩, rfl⟩
    rw [refMap_eq]
    refine (convex_convexHull ℝ _).sum_mem (fun a _ => ?_) ?_ fun a _ => subset_convexHull ℝ _ ⟨a, rfl⟩
    · refine Fin.lastCases ?_ (fun a => ?_) a
      · rw [Fin.snoc_last]; linarith
      · rw [Fin.snoc_castSucc]; exact hξ a
    · rw [Fin.sum_univ_castSucc]
      simp

theorem refMap_hasFDeriv (d : Nat) (X : Nat → Nat → ℝ) (ξ : Fin d → ℝ) :
    HasFDerivAt (refMap d X) (LinearMap.toContinuousLinearMap (Matrix.toLin' (edges (nodes d X)))) ξ := by
  have e : refMap d X = fun ξ => (fun k : Fin d => X d k) +
      LinearMap.toContinuousLinearMap (Matrix.toLin' (edges (nodes d X))) ξ := by
    funext ξ k
    simp only [refMap, Pi.add_apply, LinearMap.coe_toContinuousLinearMap', Matrix.toLin'_apply, Matrix.mulVec,
      dotProduct]
    rfl
  rw [e]
  exact (ContinuousLinearMap.hasFDerivAt _).const_add _

theorem refMap_injective {d : Nat} {X : Nat → Nat → ℝ} (h : (edges (nodes d X)).det ≠ 0) :
    Function.Injective (refMap d X) := by
  intro ξ η he
  have : Matrix.mulVec (edges (nodes d X)) ξ = Matrix.mulVec (edges (nodes d X)) η := by
    funext k
    have := congrFun he k
    exact add_left_cancel this
  exact Matrix.mulVec_injective_iff_isUnit.2 ((Matrix.isUnit_iff_isUnit_det _).2 (isUnit_iff_ne_zero.2 h)) this

/-- Change of variables. -/
theorem integral_cell {d : Nat} {X : Nat → Nat → ℝ} (h : (edges (nodes d X)).det ≠ 0) (g : (Fin d → ℝ) → ℝ) :
    ∫ p in cellSet d X, g p = |(edges (nodes d X)).det| * ∫ ξ in simplexSet d 1, g (refMap d X ξ) := by
  rw [cellSet_eq, integral_image_eq_integral_abs_det_fderiv_smul volume (simplexSet_measurable d 1)
    (fun ξ _ => (refMap_hasFDeriv d X ξ).hasFDerivWithinAt) ((refMap_injective h).injOn) g]
  rw [← integral_const_mul]
  congr 1
  funext ξ
  rw [smul_eq_mul]
  congr 2
  rw [ContinuousLinearMap.det, LinearMap.coe_toContinuousLinearMap, LinearMap.det_toLin']

/-- Affine functions over the reference cell. -/
theorem integral_affine (d : Nat) (c : ℝ) (g : Fin d → ℝ) :
    ∫ ξ in simplexSet d 1, (c + ∑ i, g i * ξ i) = 1 / (d.factorial : ℝ) * (c + ∑ i, g i * (1 / (d + 1 : ℝ))) := by
  have hint : ∀ f : (Fin d → ℝ) → ℝ, Continuous f → Integrable f (volume.restrict (simplexSet d 1)) :=
    fun f hf => hf.continuousOn.integrableOn_compact (simplexSet_isCompact d 1)
  have h0 : ∫ ξ in simplexSet d 1, (c : ℝ) = 1 / (d.factorial : ℝ) * c := by
    have := integral_simplex_monomial d 1 zero_le_one (fun _ => 0)
    simp only [pow_zero, prod_const_one, sum_const_zero, zero_add, one_pow, one_mul, Nat.factorial_zero, Nat.cast_one] at this
    rw [show (fun _ : Fin d → ℝ => c) = fun _ => c * 1 by simp, integral_const_mul, this, mul_comm]
  have h1 : ∀ i : Fin d, ∫ ξ in simplexSet d 1, ξ i = 1 / (d.factorial : ℝ) * (1 / (d + 1 : ℝ)) := by
    intro i
    have := integral_simplex_monomial d 1 zero_le_one (Pi.single i 1)
    have hp : ∀ ξ : Fin d → ℝ, ∏ j, ξ j ^ (Pi.single i 1 : Fin d → ℕ) j = ξ i := by
      intro ξ
      rw [prod_eq_single i]
      · simp
      · intro j _ hj; rw [Pi.single_eq_of_ne hj, pow_zero]
      · simp
    have hf : ∏ j, (((Pi.single i 1 : Fin d → ℕ) j).factorial : ℝ) = 1 := by
      refine prod_eq_one fun j _ => ?_
      by_cases hj : j = i
      · subst hj; simp
      · simp [Pi.single_eq_of_ne hj]
    have hs : ∑ j, (Pi.single i 1 : Fin d → ℕ) j = 1 := by rw [sum_pi_single']; simp
    simp only [hp] at this
    rw [hf, hs, one_pow, one_mul, Nat.add_comm, Nat.factorial_succ] at this
    rw [this]
    push_cast
    field_simp
  rw [integral_add (hint _ (by fun_prop)) (hint _ (by fun_prop)), integral_finsetSum _ fun i _ => hint _ (by fun_prop), h0]
  simp only [integral_const_mul, h1, mul_add, mul_sum]
  congr 1
  refine sum_congr rfl fun i _ => ?_
  ring

/-- An affine function of a point. -/
def affineFn (d : Nat) (c : ℝ) (g : Nat → ℝ) (p : Nat → ℝ) : ℝ := c + ∑ k ∈ range d, g k * p k

theorem affine_centre {d : Nat} (c : ℝ) (g : Nat → ℝ) (X : Nat → Nat → ℝ) :
    affineFn d c g (cellCentre d X) = (∑ a ∈ range (d + 1), affineFn d c g (X a)) * (1 / (d + 1 : ℝ)) := by
  have hd1 : (d : ℝ) + 1 ≠ 0 := by positivity
  unfold affineFn
  rw [sum_add_distrib, sum_const, card_range, nsmul_eq_mul, sum_comm, add_mul]
  congr 1
  · push_cast; field_simp
  · rw [sum_mul]
    refine sum_congr rfl fun k hk => ?_
    unfold cellCentre
    rw [if_pos (mem_range.1 hk), ← mul_sum]
    ring

/-- The integral of an affine function over a cell. -/
theorem integral_cell_affine {d : Nat} (hd : d = 1 ∨ d = 2 ∨ d = 3) {X : Nat → Nat → ℝ} (h : detForm d X ≠ 0)
    (c : ℝ) (g : Nat → ℝ) :
    ∫ p in cellSet d X, (c + ∑ k : Fin d, g k * p k) =
      1 / (d.factorial : ℝ) * |detForm d X| * affineFn d c g (cellCentre d X) := by
  have hd1 : (d : ℝ) + 1 ≠ 0 := by positivity
  rw [detForm_eq hd] at h ⊢
  rw [integral_cell h]
  have e : ∀ ξ : Fin d → ℝ, c + ∑ k : Fin d, g k * refMap d X ξ k =
      (c + ∑ k : Fin d, g k * X d k) + ∑ a : Fin d, (∑ k : Fin d, g k * (X a k - X d k)) * ξ a := by
    intro ξ
    unfold refMap
    simp only [mul_add, sum_add_distrib, mul_sum, sum_mul, add_assoc]
    congr 2
    rw [sum_comm]
    exact sum_congr rfl fun a _ => sum_congr rfl fun k _ => by ring
  simp only [e]
  rw [integral_affine]
  have : affineFn d c g (cellCentre d X) = c + ∑ k : Fin d, g k * X d k +
      ∑ a : Fin d, (∑ k : Fin d, g k * (X a k - X d k)) * (1 / (d + 1 : ℝ)) := by
    unfold affineFn
    rw [add_assoc]
    congr 1
    rw [← sum_mul, sum_comm, sum_mul, ← sum_add_distrib, sum_range]
    refine sum_congr rfl fun k _ => ?_
    unfold cellCentre
    rw [if_pos k.2, sum_range_succ, sum_range, ← mul_sum, sum_sub_distrib, sum_const, card_univ, Fintype.card_fin,
      nsmul_eq_mul]
    field_simp
    ring
  rw [this]
  ring

/-! ## The work of the body loads -/

/-- A point of the space, as the functions of the loads see it. -/
def extPoint {d : Nat} (p : Fin d → ℝ) (k : Nat) : ℝ := if h : k < d then p ⟨k, h⟩ else 0

theorem affine_ext {d : Nat} (c : ℝ) (g : Nat → ℝ) (p : Fin d → ℝ) :
    affineFn d c g (extPoint p) = c + ∑ k : Fin d, g k * p k := by
  unfold affineFn
  rw [sum_range]
  congr 1
  refine sum_congr rfl fun k _ => ?_
  unfold extPoint
  rw [dif_pos k.2]

/-- Work of the loads of a cell on nodal values `W`. -/
theorem bodyRow_work (loads : List LoadFn) {d : Nat} (hdof : ∀ L ∈ loads, L.dof < d) (Z : Nat → ℝ)
    (X : Nat → Nat → ℝ) (W : Nat → ℝ) :
    ∑ l ∈ range ((d + 1) * d), bodyRow loads d Z X l * W l =
      (loads.map fun L => -(meanDensity (d + 1) Z * (1 / (d.factorial : ℝ) * |detForm d X| *
        (L.f (cellCentre d X) * ((∑ a ∈ range (d + 1), W (a * d + L.dof)) * (1 / (d + 1 : ℝ))))))).sum := by
  induction loads with
  | nil => simp [bodyRow]
  | cons L loads ih =>
    have e : ∀ l, bodyRow (L :: loads) d Z X l = (∑ a ∈ range (d + 1), Pi.single (a * d + L.dof)
      (-(1 / (d.factorial : ℝ) * |detForm d X| * L.f (cellCentre d X) * (1 / (d + 1 : ℝ)) *
        meanDensity (d + 1) Z)) : Nat → ℝ) l + bodyRow loads d Z X l := by
      intro l
      unfold bodyRow
      rw [List.map_cons, List.sum_cons, Pi.add_apply]
    rw [sum_congr rfl fun l _ => show bodyRow (L :: loads) d Z X l * W l = _ from by rw [e l, add_mul],
      sum_add_distrib, ih fun L' h' => hdof L' (List.mem_cons_of_mem _ h'), List.map_cons, List.sum_cons]
    congr 1
    simp only [Finset.sum_apply, sum_mul]
    rw [sum_comm]
    have e2 : ∀ a ∈ range (d + 1), ∑ l ∈ range ((d + 1) * d), (Pi.single (a * d + L.dof)
        (-(1 / (d.factorial : ℝ) * |detForm d X| * L.f (cellCentre d X) * (1 / (d + 1 : ℝ)) *
          meanDensity (d + 1) Z)) : Nat → ℝ) l * W l =
        -(1 / (d.factorial : ℝ) * |detForm d X| * L.f (cellCentre d X) * (1 / (d + 1 : ℝ)) *
          meanDensity (d + 1) Z) * W (a * d + L.dof) := by
      intro a ha
      rw [sum_eq_single_of_mem _ (mem_range.2 (dof_lt (mem_range.1 ha) (hdof L (List.mem_cons_self ..))))]
      · rw [Pi.single_eq_same]
      · intro l _ hl; rw [Pi.single_eq_of_ne hl, zero_mul]
    rw [sum_congr rfl e2, ← mul_sum, ← sum_mul]
    ring

/-- **C49**: the work of the nodal forces of the body loads on a virtual displacement whose components are
affine functions `φ i` of the point is the integral over the cells of density times load times
displacement, whenever that integrand is affine: for an affine load and a translation, and for a
constant load and any affine displacement.  Hence resultant and moment of the loads are exact. -/
theorem C49_work {M : FeModel} (hM : M.Ok) (hdim : M.dim = 1 ∨ M.dim = 2 ∨ M.dim = 3) (hndof : M.ndof = M.dim)
    {loads : Nat → List LoadFn} (hdof : ∀ k, ∀ L ∈ loads k, L.dof < M.dim) {z x : List ℝ}
    (hdet : ∀ c, c < M.nc → detForm M.dim (M.cellX x c) ≠ 0) {c0 : Nat → ℝ} {g : Nat → Nat → ℝ} {w : Nat → ℝ}
    (hw : ∀ n i, n < M.nn → i < M.dim → w (M.dim * n + i) =
      affineFn M.dim (c0 i) (g i) fun k => at0 x (M.dim * n + k))
    (haff : ∀ k, ∀ L ∈ loads k, ∃ c' g', ∀ p, L.f p * affineFn M.dim (c0 L.dof) (g L.dof) p =
      affineFn M.dim c' g' p) :
    ∑ q ∈ range (M.nn * M.ndof), bodyForces M loads z x q * w q =
      ∑ k ∈ range M.domains.length, ∑ c ∈ range (M.size (M.part k)), ((loads k).map fun L =>
        -(meanDensity (M.dim + 1) (M.cellZ z (gcell (M.part k) c)) *
          ∫ p in cellSet M.dim (M.cellX x (gcell (M.part k) c)),
            L.f (extPoint p) * affineFn M.dim (c0 L.dof) (g L.dof) (extPoint p))).sum := by
  unfold bodyForces
  simp only [sum_mul]
  rw [sum_comm]
  refine sum_congr rfl fun k _ => ?_
  rw [scatteredVec_pairing hM.mesh (hM.domOk k)]
  refine sum_congr rfl fun c hc => ?_
  have hgc := (hM.domOk k).1 c (mem_range.1 hc)
  rw [hndof, show M.npc = M.dim + 1 from rfl, bodyRow_work _ (hdof k)]
  congr 1
  refine List.map_congr_left fun L hL => ?_
  have e : (∑ a ∈ range (M.dim + 1), w (cellDof (M.dim + 1) M.dim M.c2n (gcell (M.part k) c) (a * M.dim + L.dof))) *
      (1 / (M.dim + 1 : ℝ)) =
      affineFn M.dim (c0 L.dof) (g L.dof) (cellCentre M.dim (M.cellX x (gcell (M.part k) c))) := by
    rw [affine_centre]
    congr 1
    refine sum_congr rfl fun a ha => ?_
    have hi := hdof k L hL
    rw [show M.cellX x (gcell (M.part k) c) a = fun i => at0 x (M.dim * cellNode M.npc M.c2n (gcell (M.part k) c) a + i) from rfl,
      ← hw _ _ (hM.mesh.node_lt hgc (mem_range.1 ha)) hi]
    unfold cellDof
    rw [Nat.mul_comm a, Nat.mul_add_div (by omega), Nat.div_eq_of_lt hi, Nat.mul_add_mod,
      Nat.mod_eq_of_lt hi, Nat.add_zero]
    rfl
  obtain ⟨c', g', hp⟩ := haff k L hL
  rw [e, hp]
  simp only [hp]
  simp only [affine_ext]
  rw [integral_cell_affine hdim (hdet _ hgc)]

/-- The hypotheses are met: on the square, a load that grows linearly and a translation, or a constant
load and a rotation. -/
example : (∃ c' g', ∀ p, (affineFn 2 1 (fun k => k)) p * affineFn 2 1 (fun _ => 0) p = affineFn 2 c' g' p) ∧
    (∃ c' g', ∀ p, (fun _ : Nat → ℝ => (3 : ℝ)) p * affineFn 2 0 (fun k => if k = 0 then 0 else -1) p =
      affineFn 2 c' g' p) :=
  ⟨⟨1, fun k => k, fun p => by simp [affineFn, sum_range_succ]⟩,
    ⟨0, fun k => if k = 0 then 0 else -3, fun p => by simp [affineFn, sum_range_succ]⟩⟩

end Plato.Mech
