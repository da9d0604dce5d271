import Verif.Mass.Moment
import Verif.Mass.Integral

/-!
# Mass, first and second moments of a mesh (C69)

Specification: `pointMoment` has the mass of each cell at its centre; `trueMoment` is the sum over the
cells of the integral of density times coordinates.
-/

namespace Plato.Mass
open Plato Plato.Mech Plato.Crit Finset MeasureTheory

/-- The orders of the loops are schedules. -/
structure Orders.Ok (M : FeModel) (o : Orders) : Prop where
  eR : ∀ k j, IsSchedule (o.eR k j) (M.size (M.part k))
  eX : ∀ k j, IsSchedule (o.eX k j) (M.size (M.part k))
  eZ : ∀ k j, IsSchedule (o.eZ k j) (M.size (M.part k))
  sv : ∃ w, o.sv.Ok M 1 w
  sx : o.sx.Ok M 1 (M.npc * M.dim)
  sz : o.sz.Ok M 1 (M.npc * 1)
  ox : ∀ i, IsSchedule (o.ox i) (M.nn * M.dim)
  oz : ∀ i, IsSchedule (o.oz i) M.nn

/-- Loops in sequence. -/
def seqOrders (M : FeModel) : Orders :=
  let s : Nat → Sched := fun w => ⟨fun k => List.range (M.size (M.part k)), fun k => List.range (M.size (M.part k)),
    fun k _ => List.range (M.size (M.part k)), fun k _ => List.range (M.size (M.part k) * w),
    fun k _ => [List.range (M.size (M.part k))]⟩
  ⟨fun k _ => List.range (M.size (M.part k)), fun k _ => List.range (M.size (M.part k)),
    fun k _ => List.range (M.size (M.part k)), s 0, s (M.npc * M.dim), s (M.npc * 1), fun _ => List.range (M.nn * M.dim),
    fun _ => List.range M.nn⟩

theorem seqOrders_ok (M : FeModel) : (seqOrders M).Ok M := by
  have h : ∀ n, IsPartition [List.range n] n := fun n => by simp [IsPartition]
  have hs : ∀ n, IsSchedule (List.range n) n := IsSchedule.range
  exact ⟨fun _ _ => hs _, fun _ _ => hs _, fun _ _ => hs _,
    ⟨0, fun _ _ => hs _, fun _ _ => hs _, fun _ _ _ _ => hs _, fun _ _ _ _ => hs _, fun _ _ _ _ => h _⟩,
    ⟨fun _ _ => hs _, fun _ _ => hs _, fun _ _ _ _ => hs _, fun _ _ _ _ => hs _, fun _ _ _ _ => h _⟩,
    ⟨fun _ _ => hs _, fun _ _ => hs _, fun _ _ _ _ => hs _, fun _ _ _ _ => hs _, fun _ _ _ _ => h _⟩,
    fun _ => hs _, fun _ => hs _⟩

/-- The mesh is well formed, the space has one to three dimensions, the rule is that of the library. -/
structure Body.Ok (B : Body) : Prop where
  mesh : B.M.Ok
  dim : B.M.dim = 1 ∨ B.M.dim = 2 ∨ B.M.dim = 3
  rule : linearTetCubRule B.M.dim = .ok B.rule

theorem Body.Ok.ruleOk {B : Body} (h : B.Ok) : RuleOk B.M.dim B.rule := Mass.ruleOk h.dim h.rule

/-- Specification: the moment when the mass of each cell sits at its centre. -/
noncomputable def pointMoment (B : Body) (axes : List Nat) (z x : List ℝ) : ℝ :=
  ∑ k ∈ range B.M.domains.length, ∑ c ∈ range (B.M.size (B.M.part k)),
    B.dens k * meanDensity (B.M.dim + 1) (B.M.cellZ z (gcell (B.M.part k) c)) *
      volume.real (cellSet B.M.dim (B.M.cellX x (gcell (B.M.part k) c))) *
        (axes.map (cellCentre B.M.dim (B.M.cellX x (gcell (B.M.part k) c)))).prod

/-- Specification: the moment of the body; `ρ cell` is the density in a cell. -/
noncomputable def trueMoment (B : Body) (ρ : Nat → (Fin B.M.dim → ℝ) → ℝ) (axes : List Nat) (x : List ℝ) : ℝ :=
  ∑ k ∈ range B.M.domains.length, ∑ c ∈ range (B.M.size (B.M.part k)),
    B.dens k * ∫ p in cellSet B.M.dim (B.M.cellX x (gcell (B.M.part k) c)),
      ρ (gcell (B.M.part k) c) p * (axes.map (extPoint p)).prod

/-- `ρ` is the linear interpolation of the nodal densities. -/
def Interpolates (B : Body) (z x : List ℝ) (ρ : Nat → (Fin B.M.dim → ℝ) → ℝ) : Prop :=
  ∀ cell, cell < B.M.nc → ∃ c g, (∀ p, ρ cell p = affineFn B.M.dim c g (extPoint p)) ∧
    ∀ a, a < B.M.dim + 1 → affineFn B.M.dim c g (B.M.cellX x cell a) = B.M.cellZ z cell a

theorem cellVolume_eq {d : Nat} (hd : d = 1 ∨ d = 2 ∨ d = 3) (X : Nat → Nat → ℝ) :
    volume.real (cellSet d X) = |detForm d X| / d.factorial := by
  have := volume_simplex (nodes d X)
  rw [← detForm_eq hd] at this
  exact this

/-- Every field of nodal densities has a linear interpolation, when no cell is flat. -/
theorem interpolates_exists {B : Body} (hd : B.M.dim = 1 ∨ B.M.dim = 2 ∨ B.M.dim = 3) (z x : List ℝ)
    (hdet : ∀ c, c < B.M.nc → detForm B.M.dim (B.M.cellX x c) ≠ 0) : ∃ ρ, Interpolates B z x ρ := by
  have one : ∀ cell, ∃ f : (Fin B.M.dim → ℝ) → ℝ, cell < B.M.nc → ∃ c g,
      (∀ p, f p = affineFn B.M.dim c g (extPoint p)) ∧
      ∀ a, a < B.M.dim + 1 → affineFn B.M.dim c g (B.M.cellX x cell a) = B.M.cellZ z cell a := by
    intro cell
    by_cases hc : cell < B.M.nc
    · have h := hdet cell hc
      rw [detForm_eq hd] at h
      generalize B.M.cellX x cell = X at h
      generalize B.M.cellZ z cell = Z
      generalize B.M.dim = d at h
      set E := edges (nodes d X) with hE
      let v : Fin d → ℝ := Matrix.vecMul (fun a : Fin d => Z a - Z d) E⁻¹
      have hv : Matrix.vecMul v E = fun a : Fin d => Z a - Z d := by
        rw [Matrix.vecMul_vecMul, Matrix.nonsing_inv_mul _ (isUnit_iff_ne_zero.2 h), Matrix.vecMul_one]
      have key : ∀ a : Fin d, ∑ k : Fin d, v k * (X a k - X d k) = Z a - Z d := fun a => congrFun hv a
      refine ⟨fun p => affineFn d (Z d - ∑ k : Fin d, v k * X d k) (extPoint v) (extPoint p), fun _ => ⟨_, _, fun p => rfl, ?_⟩⟩
      intro a ha
      have e : affineFn d (Z d - ∑ k : Fin d, v k * X d k) (extPoint v) (X a) =
          Z d + ∑ k : Fin d, v k * (X a k - X d k) := by
        unfold affineFn extPoint
        rw [sum_range]
        simp only [Fin.is_lt, dif_pos, Fin.eta, mul_sub, sum_sub_distrib]
        ring
      rw [e]
      by_cases had : a < d
      · rw [key ⟨a, had⟩]; ring
      · have : a = d := by omega
        subst this
        simp
    · exact ⟨fun _ => 0, fun h => absurd h hc⟩
  choose ρ hρ using one
  exact ⟨ρ, fun cell hc => hρ cell hc⟩

section Value
variable {B : Body} (hB : B.Ok) {o : Orders} (ho : o.Ok B.M) {type : String} {axes : List Nat}
  (ht : axesOf type = some axes) (ha : ∀ i ∈ axes, i < B.M.dim)

theorem moment_local {R : Type} [CommRing R] [Div R] (fabs : R → R) {M : FeModel}
    (hdim : M.dim = 1 ∨ M.dim = 2 ∨ M.dim = 3) (rule : CubRule R) {axes : List Nat} (ha : ∀ i ∈ axes, i < M.dim)
    (dens : Nat → R) : FormLocal M fun k _ Z X => momentForm fabs M.dim rule axes (dens k) Z X := by
  intro k U U' Z Z' X X' hk hU hZ hX
  have hnp : M.npc = M.dim + 1 := rfl
  dsimp only
  unfold momentForm massForm
  rw [detForm_congr hdim hX]
  congr 1
  · congr 2
    exact sum_congr rfl fun i _ => sum_congr rfl fun j hj => by rw [hZ j (by have := mem_range.1 hj; omega)]
  · congr 1
    refine List.map_congr_left fun i hi => ?_
    unfold pointForm
    rw [hX M.dim i (by omega) (ha i hi)]
    congr 1
    exact sum_congr rfl fun n hn => by rw [hX n i (by have := mem_range.1 hn; omega) (ha i hi)]

include hB ho ht ha

/-- **C69**: the value of the function of a moment is the moment of the masses of the cells at their
centres, for every mesh, density and order of the loops. -/
theorem C69_value {z x : List ℝ} (hz : z.length = B.M.nn) (hx : x.length = B.M.nn * B.M.dim) :
    (momentFn B type o).value z x = .ok (pointMoment B axes z x) := by
  obtain ⟨w, hsv⟩ := ho.sv
  have hr := hB.ruleOk
  show physicsValue B.M _ Post.none o.sv [_] z x 0 = _
  rw [value_of_form hB.mesh (moment_computes abs hB.dim hr.basis hr.coords B.dens ho.eR ht ha 0)
    (moment_local abs hB.dim B.rule ha B.dens) (by simp) hz hx hsv]
  congr 1
  show ∑ k ∈ range B.M.domains.length, _ = _
  unfold pointMoment
  refine sum_congr rfl fun k _ => ?_
  rw [List.length_singleton, sum_range_one]
  refine sum_congr rfl fun c _ => ?_
  unfold momentForm
  rw [massForm_rule hr, cellVolume_eq hB.dim]
  congr 2
  exact List.map_congr_left fun i hi => pointForm_rule hr _ (ha i hi)

theorem moment_tracks {E : Type} [NormedAddCommGroup E] [NormedSpace ℝ E] {eF : Nat → Nat → List Nat}
    (heF : ∀ k j, IsSchedule (eF k j) (B.M.size (B.M.part k))) (x : E) :
    CritTracks B.M (momentEval abs B.M.dim B.rule B.dens type o.eR)
      (momentEval Fad.fabs B.M.dim (liftRule B.rule) (fun k => Fad.const (B.dens k)) type eF)
      (fun _ _ X => detForm B.M.dim X ≠ 0) 0 x := by
  have hr := hB.ruleOk
  refine critTracks_of_form (moment_computes abs hB.dim hr.basis hr.coords B.dens ho.eR ht ha 0)
    (moment_computes Fad.fabs hB.dim (by simp [liftRule, hr.basis]) (by simp [liftRule, hr.coords]) _ heF ht ha 0) ?_
  intro k N L UF ZF XF UR ZR XR hk _ hZ hX hg
  have hnp : B.M.npc = B.M.dim + 1 := rfl
  have at0map : ∀ (l : List ℝ) i, i < l.length → at0 (l.map Fad.const) i = Fad.const (at0 l i) := by
    intro l i hi
    simp [at0, hi]
  refine Tracks.mul ?_ ?_
  · refine Tracks.mul (Tracks.mul ?_ (Tracks.const _)) (((detForm_tracks hB.dim hX).fabs hg).mul (Tracks.const _))
    refine Tracks.sum _ fun i hi => Tracks.sum _ fun j hj => ?_
    have hi := mem_range.1 hi
    have hj := mem_range.1 hj
    show Tracks L N x (at0 (B.rule.basis.map Fad.const) i * at0 (B.rule.basis.map Fad.const) j * ZF j) _
    rw [at0map _ _ (by rw [hr.basis]; omega), at0map _ _ (by rw [hr.basis]; omega)]
    exact ((Tracks.const _).mul (Tracks.const _)).mul (hZ j (by omega))
  · have pt : ∀ i, i < B.M.dim → Tracks L N x (pointForm B.M.dim (B.rule.coords.map Fad.const) XF i)
        fun y => pointForm B.M.dim B.rule.coords (XR y) i := by
      intro i hi
      unfold pointForm
      refine Tracks.add (Tracks.sum _ fun n hn => ?_) (Tracks.mul (Tracks.sub (Tracks.const 1) (Tracks.sum _ fun n hn => ?_))
        (hX _ _ (by omega) hi))
      · have hn := mem_range.1 hn
        rw [at0map _ _ (by rw [hr.coords]; omega)]
        exact (Tracks.const _).mul (hX n i (by omega) hi)
      · have hn := mem_range.1 hn
        rw [at0map _ _ (by rw [hr.coords]; omega)]
        exact Tracks.const _
    show Tracks L N x (axes.map (pointForm B.M.dim (B.rule.coords.map Fad.const) XF)).prod
      fun y => (axes.map (pointForm B.M.dim B.rule.coords (XR y))).prod
    clear ht
    induction axes with
    | nil => exact Tracks.const 1
    | cons i l ih =>
      simp only [List.map_cons, List.prod_cons]
      exact (pt i (ha i (List.mem_cons_self ..))).mul (ih fun j hj => ha j (List.mem_cons_of_mem _ hj))

/-- **C69**: the gradients of a moment with respect to configuration and control are the derivatives of its
value, when no cell is flat. -/
theorem C69_gradient {z : Fin B.M.nn → ℝ} {x : Fin (B.M.nn * B.M.dim) → ℝ}
    (hdet : ∀ c, c < B.M.nc → detForm B.M.dim (B.M.cellX (List.ofFn x) c) ≠ 0) :
    GeoDifferentiates (momentFn B type o) (B.M.nn * B.M.dim) B.M.nn z x := by
  obtain ⟨w, hsv⟩ := ho.sv
  refine C51_geo_differentiates hB.mesh ?_ (moment_tracks hB ho ht ha ho.eX _) (moment_tracks hB ho ht ha ho.eZ _)
    hdet hsv ho.sx ho.sz fun m v _ _ => Post.none_ok m v
  intro U U' Z Z' X X' _ _ hX hg
  rw [← detForm_congr hB.dim hX]
  exact hg

end Value

/-! ## Masses at centres and the body itself -/

section Body
variable {B : Body} (hd : B.M.dim = 1 ∨ B.M.dim = 2 ∨ B.M.dim = 3) (hM : B.M.Ok) {z x : List ℝ}
  (hdet : ∀ c, c < B.M.nc → detForm B.M.dim (B.M.cellX x c) ≠ 0) {ρ : Nat → (Fin B.M.dim → ℝ) → ℝ}
  (hρ : Interpolates B z x ρ)

theorem coord_affine (d : Nat) {i : Nat} (hi : i < d) (p : Nat → ℝ) : affineFn d 0 (Pi.single i 1) p = p i := by
  unfold affineFn
  rw [sum_eq_single_of_mem i (mem_range.2 hi) fun j _ hj => by rw [Pi.single_eq_of_ne hj, zero_mul]]
  simp

theorem mean_centre {d : Nat} (X : Nat → Nat → ℝ) {i : Nat} (hi : i < d) : mean d (fun a => X a i) = cellCentre d X i := by
  unfold mean cellCentre
  rw [if_pos hi]

theorem mean_density (d : Nat) (Z : Nat → ℝ) : mean d Z = meanDensity (d + 1) Z := by
  unfold mean meanDensity
  push_cast
  rfl

theorem mean_congr {d : Nat} {v w : Nat → ℝ} (h : ∀ a, a < d + 1 → v a = w a) : mean d v = mean d w := by
  unfold mean
  rw [sum_congr rfl fun a ha => h a (mem_range.1 ha)]

theorem spread_congr {d : Nat} {v v' w w' : Nat → ℝ} (h : ∀ a, a < d + 1 → v a = v' a)
    (h' : ∀ a, a < d + 1 → w a = w' a) : spread d v w = spread d v' w' := by
  unfold spread
  rw [mean_congr h, mean_congr h', sum_congr rfl fun a ha => by rw [h a (mem_range.1 ha), h' a (mem_range.1 ha)]]

include hd hM hdet hρ

/-- **C69**: the mass is exact, also when the density varies in the cells. -/
theorem C69_mass : pointMoment B [] z x = trueMoment B ρ [] x := by
  unfold pointMoment trueMoment
  refine sum_congr rfl fun k _ => sum_congr rfl fun c hc => ?_
  have hgc := (hM.domOk k).1 c (mem_range.1 hc)
  obtain ⟨c0, g, h1, h2⟩ := hρ _ hgc
  have e : ∀ p, ρ (gcell (B.M.part k) c) p = c0 + ∑ i : Fin B.M.dim, g i * p i := fun p => by rw [h1, affine_ext]
  simp only [List.map_nil, List.prod_nil, mul_one, e]
  rw [integral_cell_affine hd (hdet _ hgc), affine_centre, cellVolume_eq hd,
    sum_congr rfl fun a ha => h2 a (mem_range.1 ha)]
  unfold meanDensity
  push_cast
  ring

/-- **C69**: what a first moment lacks: the covariance of density and coordinate in each cell. -/
theorem C69_first {i : Nat} (hi : i < B.M.dim) : trueMoment B ρ [i] x = pointMoment B [i] z x +
    ∑ k ∈ range B.M.domains.length, ∑ c ∈ range (B.M.size (B.M.part k)),
      B.dens k * volume.real (cellSet B.M.dim (B.M.cellX x (gcell (B.M.part k) c))) *
        spread B.M.dim (B.M.cellZ z (gcell (B.M.part k) c)) fun a => B.M.cellX x (gcell (B.M.part k) c) a i := by
  unfold pointMoment trueMoment
  rw [← sum_add_distrib]
  refine sum_congr rfl fun k _ => ?_
  rw [← sum_add_distrib]
  refine sum_congr rfl fun c hc => ?_
  have hgc := (hM.domOk k).1 c (mem_range.1 hc)
  obtain ⟨c0, g, h1, h2⟩ := hρ _ hgc
  have e : ∀ p : Fin B.M.dim → ℝ, ρ (gcell (B.M.part k) c) p * ([i].map (extPoint p)).prod =
      affineFn B.M.dim c0 g (extPoint p) * affineFn B.M.dim 0 (Pi.single i 1) (extPoint p) := fun p => by
    rw [h1, coord_affine _ hi]; simp
  simp only [e]
  rw [integral_cell_product hd (hdet _ hgc), cellVolume_eq hd]
  simp only [coord_affine _ hi]
  rw [mean_congr h2, spread_congr h2 fun a _ => rfl, mean_centre _ hi, mean_density]
  simp only [List.map_cons, List.map_nil, List.prod_cons, List.prod_nil, mul_one]
  ring

/-- **C69**, partial: first moments are exact when the density does not vary in any cell.  Missing: densities
that vary in a cell, for which it is false (`C69_first_false`). -/
theorem C69_first_partial (hu : ∀ c, c < B.M.nc → ∃ t, ∀ a, a < B.M.dim + 1 → B.M.cellZ z c a = t) {i : Nat} (hi : i < B.M.dim) :
    pointMoment B [i] z x = trueMoment B ρ [i] x := by
  rw [C69_first hd hM hdet hρ hi, sum_eq_zero fun k _ => sum_eq_zero fun c hc => ?_, add_zero]
  obtain ⟨t, ht⟩ := hu _ ((hM.domOk k).1 c (mem_range.1 hc))
  rw [(spread_const _ _ ht).2, mul_zero]

/-- **C69**: what a second moment lacks when the density does not vary in any cell: the moment of each cell
about its own centre. -/
theorem C69_second (hu : ∀ c, c < B.M.nc → ∃ t, ∀ a, a < B.M.dim + 1 → B.M.cellZ z c a = t) {i j : Nat}
    (hi : i < B.M.dim) (hj : j < B.M.dim) : trueMoment B ρ [i, j] x = pointMoment B [i, j] z x +
    ∑ k ∈ range B.M.domains.length, ∑ c ∈ range (B.M.size (B.M.part k)),
      B.dens k * meanDensity (B.M.dim + 1) (B.M.cellZ z (gcell (B.M.part k) c)) *
        volume.real (cellSet B.M.dim (B.M.cellX x (gcell (B.M.part k) c))) *
        spread B.M.dim (fun a => B.M.cellX x (gcell (B.M.part k) c) a i)
          fun a => B.M.cellX x (gcell (B.M.part k) c) a j := by
  unfold pointMoment trueMoment
  rw [← sum_add_distrib]
  refine sum_congr rfl fun k _ => ?_
  rw [← sum_add_distrib]
  refine sum_congr rfl fun c hc => ?_
  have hgc := (hM.domOk k).1 c (mem_range.1 hc)
  obtain ⟨c0, g, h1, h2⟩ := hρ _ hgc
  obtain ⟨t, ht⟩ := hu _ hgc
  have hm : meanDensity (B.M.dim + 1) (B.M.cellZ z (gcell (B.M.part k) c)) = t := by
    have h0 : (B.M.dim + 1 : ℝ) ≠ 0 := by positivity
    rw [← mean_density, mean_congr ht]
    unfold mean
    rw [sum_const, card_range, nsmul_eq_mul]
    push_cast
    field_simp
  have hcst : ∀ p ∈ cellSet B.M.dim (B.M.cellX x (gcell (B.M.part k) c)), affineFn B.M.dim c0 g (extPoint p) = t := by
    intro p hp
    rw [cellSet_eq] at hp
    obtain ⟨ξ, -, rfl⟩ := hp
    have e : affineFn B.M.dim c0 g (extPoint (refMap B.M.dim (B.M.cellX x (gcell (B.M.part k) c)) ξ)) =
        affineFn B.M.dim c0 g (B.M.cellX x (gcell (B.M.part k) c) B.M.dim) + ∑ a : Fin B.M.dim,
          (affineFn B.M.dim c0 g (B.M.cellX x (gcell (B.M.part k) c) a) -
            affineFn B.M.dim c0 g (B.M.cellX x (gcell (B.M.part k) c) B.M.dim)) * ξ a := by
      rw [affine_ext]
      unfold affineFn refMap
      simp only [mul_add, sum_add_distrib, mul_sum, add_assoc, sum_range]
      congr 2
      rw [sum_comm]
      refine sum_congr rfl fun a _ => ?_
      rw [add_sub_add_left_eq_sub, ← sum_sub_distrib, sum_mul]
      exact sum_congr rfl fun k _ => by ring
    rw [e, h2 _ (by omega), ht _ (by omega), sum_eq_zero fun a _ => by
      rw [h2 _ (by have := a.2; omega), ht _ (by have := a.2; omega), sub_self, zero_mul], add_zero]
  have hmeas : MeasurableSet (cellSet B.M.dim (B.M.cellX x (gcell (B.M.part k) c))) := by
    have : IsCompact (cellSet B.M.dim (B.M.cellX x (gcell (B.M.part k) c))) :=
      (Set.finite_range _).isCompact_convexHull (𝕜 := ℝ)
    exact this.measurableSet
  have e : ∫ p in cellSet B.M.dim (B.M.cellX x (gcell (B.M.part k) c)),
      ρ (gcell (B.M.part k) c) p * ([i, j].map (extPoint p)).prod =
      t * ∫ p in cellSet B.M.dim (B.M.cellX x (gcell (B.M.part k) c)),
        affineFn B.M.dim 0 (Pi.single i 1) (extPoint p) * affineFn B.M.dim 0 (Pi.single j 1) (extPoint p) := by
    rw [← integral_const_mul]
    refine setIntegral_congr_fun hmeas fun p hp => ?_
    rw [h1, hcst p hp, coord_affine _ hi, coord_affine _ hj]
    simp
  rw [e, integral_cell_product hd (hdet _ hgc), hm, cellVolume_eq hd]
  simp only [coord_affine _ hi, coord_affine _ hj]
  rw [mean_centre _ hi, mean_centre _ hj]
  simp only [List.map_cons, List.map_nil, List.prod_cons, List.prod_nil, mul_one]
  ring

end Body

/-! ## Moments about axes that the space does not have -/

theorem parFor_ub {σ : Type} {order : List Nat} (h : order ≠ []) {s : σ} {body : Nat → σ → Res σ}
    (hb : ∀ i ∈ order, ∀ s, body i s = .ub) : parFor order s body = .ub := by
  cases order with
  | nil => exact absurd rfl h
  | cons i l =>
    unfold parFor
    rw [hb i (List.mem_cons_self ..)]
    rfl

/-- **C69**: a first or second moment about an axis that the space does not have reads past the end of
the coordinates of the centre: undefined behaviour in every domain with a cell. -/
theorem C69_axis {R : Type} [CommRing R] [Div R] (fabs : R → R) {M : FeModel} (hdim : M.dim = 1 ∨ M.dim = 2 ∨ M.dim = 3)
    {rule : CubRule R} (hb : rule.basis.length = M.dim + 1) (hc : rule.coords.length = M.dim) (dens : Nat → R)
    {sch : Nat → Nat → List Nat} (hs : ∀ k j, IsSchedule (sch k j) (M.size (M.part k))) {type : String} {axes : List Nat}
    (ht : axesOf type = some axes) {i : Nat} (hi : i ∈ axes) (hd : M.dim ≤ i) {k : Nat} (hk : 0 < M.size (M.part k))
    {s z : V2 R} {x : V3 R} (hp : PartOk M k s z x) (r : List R) (dt : ℝ) :
    momentEval fabs M.dim rule dens type sch k s z x r dt = .ub := by
  have hnp : M.npc = M.dim + 1 := rfl
  have h0 := hp.z0
  have h1 := hp.z1
  have h2 := hp.x0
  have h3 := hp.x1
  have h4 := hp.x2
  have hne : sch k 1 ≠ [] := by
    intro h
    have := (hs k 1).length_eq
    rw [h] at this
    simp at this
    omega
  have hmem : ∀ c ∈ sch k 1, c < M.size (M.part k) := fun c hc => List.mem_range.1 ((hs k 1).mem_iff.1 hc)
  obtain ⟨q, hq, q0, q1, -⟩ := mapPoint_ok hc (nc := M.size (M.part k)) (x := x) (by omega) (by omega) (by omega) (hs k 0)
    (p := ⟨x.d0, M.dim, fun _ _ => 0⟩) (by dsimp only; omega) rfl
  dsimp only at q0
  have first : ∀ j, M.dim ≤ j → firstMoment fabs M.dim rule (dens k) (sch k) j z x r = .ub := by
    intro j hj
    unfold firstMoment
    rw [hq, Res.ok_bind]
    refine parFor_ub hne fun c hc r => ?_
    have := hmem c hc
    rw [massFactor_ok fabs hdim hb (dens k) (by omega) (by omega) (by omega) (by omega) (by omega), Res.ok_bind]
    unfold vrd2
    rw [if_neg (by omega)]
    rfl
  have second : ∀ j l, M.dim ≤ j ∨ M.dim ≤ l → secondMoment fabs M.dim rule (dens k) (sch k) j l z x r = .ub := by
    intro j l hj
    unfold secondMoment
    rw [hq, Res.ok_bind]
    refine parFor_ub hne fun c hc r => ?_
    have := hmem c hc
    rw [massFactor_ok fabs hdim hb (dens k) (by omega) (by omega) (by omega) (by omega) (by omega), Res.ok_bind]
    unfold vrd2
    by_cases hjd : M.dim ≤ j
    · rw [if_neg (by omega)]
      rfl
    · rw [if_pos (by omega), Res.ok_bind, if_neg (by omega)]
      rfl
  unfold axesOf at ht
  split at ht <;> cases ht <;> simp only [List.mem_cons, List.not_mem_nil, or_false, or_self] at hi
  · exact first 0 (by omega)
  · exact first 1 (by omega)
  · exact first 2 (by omega)
  · exact second 0 0 (by omega)
  · exact second 1 1 (by omega)
  · exact second 2 2 (by omega)
  · exact second 0 1 (by omega)
  · exact second 0 2 (by omega)
  · exact second 1 2 (by omega)

/-- **C69**: other names are rejected. -/
theorem C69_rejects {R : Type} [CommRing R] [Div R] (fabs : R → R) (d : Nat) (rule : CubRule R) (dens : Nat → R)
    (sch : Nat → Nat → List Nat) {type : String} (ht : axesOf type = none) (k : Nat) (s z : V2 R) (x : V3 R) (r : List R)
    (dt : ℝ) : ∃ m, momentEval fabs d rule dens type sch k s z x r dt = .err m := by
  unfold momentEval
  unfold axesOf at ht
  split at ht <;> first | cases ht | skip
  iterate 10 rw [if_neg (by assumption)]
  exact ⟨_, rfl⟩

end Plato.Mass
