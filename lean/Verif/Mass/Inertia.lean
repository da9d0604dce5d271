import Verif.Mass.Props

/-!
# The functions of mass, centre of gravity and inertia (C70)
-/

namespace Plato.Mass
open Plato Plato.Mech Plato.Crit Finset Matrix

/-! ## Specification -/

/-- Mass. -/
noncomputable def massOf (B : Body) (z x : List ℝ) : ℝ := pointMoment B [] z x

/-- Centre of gravity. -/
noncomputable def centreOf (B : Body) (z x : List ℝ) (i : Fin 3) : ℝ := pointMoment B [i.1] z x / pointMoment B [] z x

/-- Inertia tensor about the origin. -/
noncomputable def inertiaOf (B : Body) (z x : List ℝ) : Tensor := fun i j =>
  (if i = j then ∑ k : Fin 3, pointMoment B [k.1, k.1] z x else 0) - pointMoment B [i.1, j.1] z x

/-- Inertia tensor about a point: the masses of the cells at their distances from it. -/
noncomputable def inertiaAbout (B : Body) (q : Fin 3 → ℝ) (z x : List ℝ) : Tensor := fun i j =>
  ∑ k ∈ range B.M.domains.length, ∑ c ∈ range (B.M.size (B.M.part k)),
    B.dens k * meanDensity (B.M.dim + 1) (B.M.cellZ z (gcell (B.M.part k) c)) *
      MeasureTheory.volume.real (cellSet B.M.dim (B.M.cellX x (gcell (B.M.part k) c))) *
      ((if i = j then ∑ l : Fin 3, (cellCentre B.M.dim (B.M.cellX x (gcell (B.M.part k) c)) l - q l) ^ 2 else 0) -
        (cellCentre B.M.dim (B.M.cellX x (gcell (B.M.part k) c)) i - q i) *
        (cellCentre B.M.dim (B.M.cellX x (gcell (B.M.part k) c)) j - q j))

/-- Components of a tensor by name. -/
def pairOf : String → Option (Fin 3 × Fin 3)
  | "XX" => some (0, 0)
  | "YY" => some (1, 1)
  | "ZZ" => some (2, 2)
  | "XY" => some (0, 1)
  | "XZ" => some (0, 2)
  | "YZ" => some (1, 2)
  | _ => none

theorem inertiaAbout_eq (B : Body) (q : Fin 3 → ℝ) (z x : List ℝ) (i j : Fin 3) : inertiaAbout B q z x i j =
    inertiaOf B z x i j +
      (if i = j then ∑ l : Fin 3, (massOf B z x * q l ^ 2 - 2 * q l * pointMoment B [l.1] z x) else 0) +
      q j * pointMoment B [i.1] z x + q i * pointMoment B [j.1] z x - massOf B z x * q i * q j := by
  have lin : ∀ f : Nat → Nat → ℝ, ∀ t : ℝ, t * ∑ k ∈ range B.M.domains.length, ∑ c ∈ range (B.M.size (B.M.part k)), f k c =
      ∑ k ∈ range B.M.domains.length, ∑ c ∈ range (B.M.size (B.M.part k)), t * f k c := by
    intro f t
    rw [mul_sum]
    exact sum_congr rfl fun k _ => mul_sum _ _ _
  have add : ∀ f g : Nat → Nat → ℝ, ∑ k ∈ range B.M.domains.length, ∑ c ∈ range (B.M.size (B.M.part k)), (f k c + g k c) =
      (∑ k ∈ range B.M.domains.length, ∑ c ∈ range (B.M.size (B.M.part k)), f k c) +
      ∑ k ∈ range B.M.domains.length, ∑ c ∈ range (B.M.size (B.M.part k)), g k c := by
    intro f g
    rw [← sum_add_distrib]
    exact sum_congr rfl fun k _ => sum_add_distrib
  unfold inertiaAbout inertiaOf massOf pointMoment
  generalize hm : (fun k c => B.dens k * meanDensity (B.M.dim + 1) (B.M.cellZ z (gcell (B.M.part k) c)) *
    MeasureTheory.volume.real (cellSet B.M.dim (B.M.cellX x (gcell (B.M.part k) c)))) = m
  have hm' : ∀ k c, B.dens k * meanDensity (B.M.dim + 1) (B.M.cellZ z (gcell (B.M.part k) c)) *
    MeasureTheory.volume.real (cellSet B.M.dim (B.M.cellX x (gcell (B.M.part k) c))) = m k c := fun k c => by rw [← hm]
  simp only [hm']
  generalize hr : (fun k c => cellCentre B.M.dim (B.M.cellX x (gcell (B.M.part k) c))) = r
  have hr' : ∀ k c, cellCentre B.M.dim (B.M.cellX x (gcell (B.M.part k) c)) = r k c := fun k c => by rw [← hr]
  simp only [hr', List.map_cons, List.map_nil, List.prod_cons, List.prod_nil, mul_one]
  have ms : ∀ (t : ℝ) (f : Nat → Nat → ℝ), (∑ k ∈ range B.M.domains.length, ∑ c ∈ range (B.M.size (B.M.part k)), f k c) * t =
      ∑ k ∈ range B.M.domains.length, ∑ c ∈ range (B.M.size (B.M.part k)), t * f k c := fun t f => by rw [mul_comm, lin]
  have sub : ∀ f g : Nat → Nat → ℝ, (∑ k ∈ range B.M.domains.length, ∑ c ∈ range (B.M.size (B.M.part k)), f k c) -
      (∑ k ∈ range B.M.domains.length, ∑ c ∈ range (B.M.size (B.M.part k)), g k c) =
      ∑ k ∈ range B.M.domains.length, ∑ c ∈ range (B.M.size (B.M.part k)), (f k c - g k c) := by
    intro f g
    rw [← sum_sub_distrib]
    exact sum_congr rfl fun k _ => (sum_sub_distrib _ _).symm
  by_cases hij : i = j
  · simp only [hij, if_true, Fin.sum_univ_three, lin, ms, ← add, sub]
    refine sum_congr rfl fun k _ => sum_congr rfl fun c _ => ?_
    ring
  · simp only [hij, if_false, lin, ms, zero_sub, add_zero, ← add, sub, ← sum_neg_distrib]
    refine sum_congr rfl fun k _ => sum_congr rfl fun c _ => ?_
    ring

theorem centre_mul {B : Body} {z x : List ℝ} (h : massOf B z x ≠ 0) (i : Fin 3) :
    pointMoment B [i.1] z x = massOf B z x * centreOf B z x i := by
  unfold centreOf massOf at *
  field_simp

/-- The parallel axis theorem: the inertia about the centre of gravity. -/
theorem parallel_axis {B : Body} {z x : List ℝ} (h : massOf B z x ≠ 0) :
    inertiaAbout B (centreOf B z x) z x = inertiaOf B z x - massOf B z x • parallelAxis (centreOf B z x) := by
  funext i j
  rw [inertiaAbout_eq, centre_mul h i, centre_mul h j]
  unfold parallelAxis
  simp only [Matrix.sub_apply, Matrix.smul_apply, Matrix.one_apply, Matrix.vecMulVec_apply, smul_eq_mul, dotProduct,
    Fin.sum_univ_three]
  have h0 := centre_mul h 0
  have h1 := centre_mul h 1
  have h2 := centre_mul h 2
  by_cases hij : i = j
  · simp only [hij, if_true, h0, h1, h2]
    ring
  · simp only [hij, if_false]
    ring

/-! ## Functions that compute what they should -/

/-- Where it is used, the function has the value `v` and its gradients are the derivatives of that value. -/
structure Sound (B : Body) (D : List ℝ → List ℝ → Prop) (f : GeoCriterion) (v : List ℝ → List ℝ → ℝ) : Prop where
  value : ∀ z x, z.length = B.M.nn → x.length = B.M.nn * B.M.dim → D z x → f.value z x = .ok (v z x)
  grad : ∀ (z : Fin B.M.nn → ℝ) (x : Fin (B.M.nn * B.M.dim) → ℝ), D (List.ofFn z) (List.ofFn x) →
    (∀ c, c < B.M.nc → detForm B.M.dim (B.M.cellX (List.ofFn x) c) ≠ 0) →
    GeoDifferentiates f (B.M.nn * B.M.dim) B.M.nn z x

theorem Sound.mono {B : Body} {D D' : List ℝ → List ℝ → Prop} {f : GeoCriterion} {v : List ℝ → List ℝ → ℝ}
    (h : Sound B D f v) (hD : ∀ z x, D' z x → D z x) : Sound B D' f v :=
  ⟨fun z x hz hx hd => h.value z x hz hx (hD _ _ hd), fun z x hd hdet => h.grad z x (hD _ _ hd) hdet⟩

section
variable {B : Body} (hB : B.Ok)
include hB

theorem moment_sound {o : Orders} (ho : o.Ok B.M) {type : String} {axes : List Nat} (ht : axesOf type = some axes)
    (ha : ∀ i ∈ axes, i < B.M.dim) (D : List ℝ → List ℝ → Prop) : Sound B D (momentFn B type o) (pointMoment B axes) :=
  ⟨fun _ _ hz hx _ => C69_value hB ho ht ha hz hx, fun _ _ _ hdet => C69_gradient hB ho ht ha hdet⟩

theorem mass_sound {o : Orders} (ho : o.Ok B.M) (D : List ℝ → List ℝ → Prop) :
    Sound B D (momentFn B "Mass" o) (massOf B) :=
  moment_sound hB ho (type := "Mass") (axes := []) rfl (by simp) D

omit hB in
theorem sum_sound {D : List ℝ → List ℝ → Prop} {fs : List GeoCriterion} {ws : List ℝ} {vs : List (List ℝ → List ℝ → ℝ)}
    (hw : ws.length = fs.length) (h : List.Forall₂ (Sound B D) fs vs) {o : Orders} (ho : o.Ok B.M) :
    Sound B D (sumFn B fs ws o) fun z x => ∑ i ∈ range fs.length, at0 ws i * (vs[i]?.getD 0) z x := by
  have hl := h.length_eq
  refine ⟨fun z x hz hx hD => ?_, fun z x hD hdet => ?_⟩
  · refine weightedValue_ok hw fun i hi => ?_
    have := ((List.forall₂_iff_get.1 h).2 i hi (by omega)).value z x hz hx hD
    rw [List.get_eq_getElem, List.get_eq_getElem] at this
    rw [rd_eq hi, Res.ok_bind, this]
    simp [hl ▸ hi]
  · have := C26_geo_weighted hw (schX := o.ox) (schZ := o.oz) (fun i _ => ho.ox i) (fun i _ => ho.oz i)
      (z := z) (x := x) (fs := fs) fun f hf => by
        obtain ⟨i, hi, rfl⟩ := List.getElem_of_mem hf
        exact ((List.forall₂_iff_get.1 h).2 i hi (by omega)).grad z x hD hdet
    exact ⟨this.1, this.2⟩

variable (h3 : B.M.dim = 3)
include h3

theorem ratio_sound {o : List Nat → Orders} (ho : ∀ p, (o p).Ok B.M) {type : String} {i : Fin 3}
    (ht : axesOf type = some [i.1]) : Sound B (fun z x => massOf B z x ≠ 0) (ratioFn B type o) fun z x => centreOf B z x i := by
  have ha : ∀ j ∈ [i.1], j < B.M.dim := by
    intro j hj
    rw [List.mem_singleton.1 hj, h3]
    exact i.2
  have hn := moment_sound hB (ho [0]) ht ha fun z x => massOf B z x ≠ 0
  have hm := mass_sound hB (ho [1]) fun z x => massOf B z x ≠ 0
  refine ⟨fun z x hz hx hD => ?_, fun z x hD hdet => ?_⟩
  · show quotValue _ _ = _
    unfold quotValue
    rw [hn.value z x hz hx hD, Res.ok_bind, hm.value z x hz hx hD, Res.ok_bind]
    dsimp only
    rw [if_neg hD]
    rfl
  · have h0 : (momentFn B "Mass" (o [1])).value (List.ofFn z) (List.ofFn x) ≠ .ok 0 := by
      rw [hm.value _ _ List.length_ofFn List.length_ofFn hD]
      intro h
      exact hD (Res.ok.inj h)
    have := C26_geo_division ((ho []).ox 0) ((ho []).oz 0) (hn.grad z x hD hdet) (hm.grad z x hD hdet) h0
    exact ⟨this.1, this.2⟩

/-- **C70**: the functions of the components of the inertia tensor. -/
theorem inertia_sound {o : List Nat → Orders} (ho : ∀ p, (o p).Ok B.M) {axes : String} {i j : Fin 3}
    (hp : pairOf axes = some (i, j)) (D : List ℝ → List ℝ → Prop) :
    (inertiaFn B axes o).Sat fun f => Sound B D f fun z x => inertiaOf B z x i j := by
  have two : ∀ {type : String} {a b : Nat} {o : Orders}, o.Ok B.M → axesOf type = some [a, b] → a < 3 → b < 3 →
      Sound B D (momentFn B type o) (pointMoment B [a, b]) := by
    intro type a b o ho ht ha hb
    refine moment_sound hB ho ht ?_ D
    intro j hj
    rw [h3]
    rcases List.mem_cons.1 hj with rfl | hj
    · exact ha
    · rw [List.mem_singleton.1 hj]; exact hb
  have diag : ∀ {s t : String} {a b : Nat}, axesOf s = some [a, a] → axesOf t = some [b, b] → a < 3 → b < 3 →
      ∀ {v : List ℝ → List ℝ → ℝ}, (∀ z x, pointMoment B [a, a] z x + pointMoment B [b, b] z x = v z x) →
      Sound B D (sumFn B [momentFn B s (o [0]), momentFn B t (o [1])] [1, 1] (o [])) v := by
    intro s t a b hs ht ha hb v hv
    have := sum_sound (B := B) (D := D) (ws := [1, 1]) rfl
      (.cons (two (ho [0]) hs ha ha) (.cons (two (ho [1]) ht hb hb) .nil)) (ho [])
    refine ⟨fun z x hz hx hD => ?_, this.grad⟩
    rw [this.value z x hz hx hD, ← hv]
    simp [sum_range_succ, at0]
  have off : ∀ {s : String} {a b : Nat}, axesOf s = some [a, b] → a < 3 → b < 3 →
      ∀ {v : List ℝ → List ℝ → ℝ}, (∀ z x, -pointMoment B [a, b] z x = v z x) →
      Sound B D (sumFn B [momentFn B s (o [0])] [-1] (o [])) v := by
    intro s a b hs ha hb v hv
    have := sum_sound (B := B) (D := D) (ws := [-1]) rfl (.cons (two (ho [0]) hs ha hb) .nil) (ho [])
    refine ⟨fun z x hz hx hD => ?_, this.grad⟩
    rw [this.value z x hz hx hD, ← hv]
    simp [at0]
  unfold pairOf at hp
  split at hp <;> cases hp
  · exact Res.Sat.ok (diag (s := "SecondYY") (t := "SecondZZ") rfl rfl (by omega) (by omega) fun z x => by
      simp [inertiaOf, Fin.sum_univ_three]; ring)
  · exact Res.Sat.ok (diag (s := "SecondXX") (t := "SecondZZ") rfl rfl (by omega) (by omega) fun z x => by
      simp [inertiaOf, Fin.sum_univ_three]; ring)
  · exact Res.Sat.ok (diag (s := "SecondXX") (t := "SecondYY") rfl rfl (by omega) (by omega) fun z x => by
      simp [inertiaOf, Fin.sum_univ_three])
  · exact Res.Sat.ok (off (s := "SecondXY") rfl (by omega) (by omega) fun z x => by simp [inertiaOf])
  · exact Res.Sat.ok (off (s := "SecondXZ") rfl (by omega) (by omega) fun z x => by simp [inertiaOf])
  · exact Res.Sat.ok (off (s := "SecondYZ") rfl (by omega) (by omega) fun z x => by simp [inertiaOf])

omit hB h3 in
theorem inertia_symm (z x : List ℝ) (i j : Fin 3) : inertiaOf B z x i j = inertiaOf B z x j i := by
  unfold inertiaOf pointMoment
  congr 1
  · simp only [eq_comm (a := i)]
  · refine sum_congr rfl fun k _ => sum_congr rfl fun c _ => ?_
    simp only [List.map_cons, List.map_nil, List.prod_cons, List.prod_nil, mul_one]
    ring

/-- **C70**: the functions of the rotated components: `Qᵀ (I - m P) Q`, with the `P` of the gold centre. -/
theorem rotated_sound {o : List Nat → Orders} (ho : ∀ p, (o p).Ok B.M) {F : Frame} {P : Tensor}
    (hP : F.minusP = -(F.Qᵀ * (P * F.Q))) {axes : String} {i j : Fin 3} (hp : pairOf axes = some (i, j))
    (D : List ℝ → List ℝ → Prop) : (rotatedFn B F axes o).Sat fun f =>
      Sound B D f fun z x => (F.Qᵀ * ((inertiaOf B z x - massOf B z x • P) * F.Q)) i j := by
  have hu : ∀ n p, ((under o n) p).Ok B.M := fun n p => ho (n :: p)
  obtain ⟨xx, exx, sxx⟩ := inertia_sound hB h3 (hu 0) (axes := "XX") (i := 0) (j := 0) rfl D
  obtain ⟨yy, eyy, syy⟩ := inertia_sound hB h3 (hu 1) (axes := "YY") (i := 1) (j := 1) rfl D
  obtain ⟨zz, ezz, szz⟩ := inertia_sound hB h3 (hu 2) (axes := "ZZ") (i := 2) (j := 2) rfl D
  obtain ⟨xy, exy, sxy⟩ := inertia_sound hB h3 (hu 3) (axes := "XY") (i := 0) (j := 1) rfl D
  obtain ⟨xz, exz, sxz⟩ := inertia_sound hB h3 (hu 4) (axes := "XZ") (i := 0) (j := 2) rfl D
  obtain ⟨yz, eyz, syz⟩ := inertia_sound hB h3 (hu 5) (axes := "YZ") (i := 1) (j := 2) rfl D
  have fin : ∀ (w : List ℝ) (m : ℝ), w.length = 6 → ∀ {v : List ℝ → List ℝ → ℝ}, (∀ z x, v z x =
      at0 w 0 * inertiaOf B z x 0 0 + at0 w 1 * inertiaOf B z x 1 1 + at0 w 2 * inertiaOf B z x 2 2 +
      at0 w 3 * inertiaOf B z x 0 1 + at0 w 4 * inertiaOf B z x 0 2 + at0 w 5 * inertiaOf B z x 1 2 + m * massOf B z x) →
      Sound B D (sumFn B [xx, yy, zz, xy, xz, yz, momentFn B "Mass" (o [6])] (w ++ [m]) (o [])) v := by
    intro w m hw v hv
    have := sum_sound (B := B) (D := D) (ws := w ++ [m]) (by simp [hw]) (.cons sxx (.cons syy (.cons szz (.cons sxy (.cons sxz (.cons syz
      (.cons (mass_sound hB (ho [6]) D) .nil))))))) (ho [])
    refine ⟨fun z x hz hx hD => ?_, this.grad⟩
    rw [this.value z x hz hx hD, hv]
    match w, hw with
    | [a, b, c, d, e, f], _ => simp [sum_range_succ, at0]
  unfold rotatedFn
  have s1 := fun z x => inertia_symm (B := B) z x 1 0
  have s2 := fun z x => inertia_symm (B := B) z x 2 0
  have s3 := fun z x => inertia_symm (B := B) z x 2 1
  have val : ∀ z x, (F.Qᵀ * ((inertiaOf B z x - massOf B z x • P) * F.Q)) i j =
      (F.Qᵀ * (inertiaOf B z x * F.Q)) i j + F.minusP i j * massOf B z x := by
    intro z x
    rw [hP, Matrix.sub_mul, Matrix.mul_sub, Matrix.smul_mul, Matrix.mul_smul]
    simp only [Matrix.sub_apply, Matrix.smul_apply, Matrix.neg_apply, smul_eq_mul]
    ring
  have expand : ∀ z x, (F.Qᵀ * (inertiaOf B z x * F.Q)) i j =
      F.Q 0 i * F.Q 0 j * inertiaOf B z x 0 0 + F.Q 1 i * F.Q 1 j * inertiaOf B z x 1 1 +
      F.Q 2 i * F.Q 2 j * inertiaOf B z x 2 2 + (F.Q 0 i * F.Q 1 j + F.Q 0 j * F.Q 1 i) * inertiaOf B z x 0 1 +
      (F.Q 0 i * F.Q 2 j + F.Q 0 j * F.Q 2 i) * inertiaOf B z x 0 2 +
      (F.Q 1 i * F.Q 2 j + F.Q 1 j * F.Q 2 i) * inertiaOf B z x 1 2 := by
    intro z x
    simp only [Matrix.mul_apply, Fin.sum_univ_three, Matrix.transpose_apply, s1, s2, s3]
    ring
  unfold pairOf at hp
  split at hp <;> cases hp
  all_goals
    simp only [exx, eyy, ezz, exy, exz, eyz, Res.ok_bind, inertiaWeights, Res.pure_eq]
    refine Res.Sat.ok (fin _ _ rfl fun z x => ?_)
    rw [val, expand]
    simp only [at0, List.getElem?_cons_zero, List.getElem?_cons_succ, Option.getD_some]
    try ring

end

end Plato.Mass
