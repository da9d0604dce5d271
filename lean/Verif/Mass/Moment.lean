import Verif.Mass.Model
import Verif.Crit.ElasticProps
import Verif.Mech.LoadResultant
import Verif.Bnd.Value

/-!
# What the evaluators of the mass moments compute (C69)
-/

namespace Plato.Mass
open Plato Plato.Mech Plato.Crit Finset

/-- Specification: the coordinates in the product of each kind of moment. -/
def axesOf : String → Option (List Nat)
  | "Mass" => some []
  | "FirstX" => some [0]
  | "FirstY" => some [1]
  | "FirstZ" => some [2]
  | "SecondXX" => some [0, 0]
  | "SecondYY" => some [1, 1]
  | "SecondZZ" => some [2, 2]
  | "SecondXY" => some [0, 1]
  | "SecondXZ" => some [0, 2]
  | "SecondYZ" => some [1, 2]
  | _ => none

section Forms
variable {R : Type} [CommRing R] [Div R] (fabs : R → R)

/-- Mass of a cell as the loops compute it. -/
def massForm (d : Nat) (rule : CubRule R) (dens : R) (Z : Nat → R) (X : Nat → Nat → R) : R :=
  (∑ i ∈ range (d + 1), ∑ j ∈ range (d + 1), at0 rule.basis i * at0 rule.basis j * Z j) * dens *
    (fabs (detForm d X) * rule.weight)

/-- The mapped point as the loops compute it. -/
def pointForm (d : Nat) (ref : List R) (X : Nat → Nat → R) (i : Nat) : R :=
  ∑ n ∈ range d, at0 ref n * X n i + (1 - ∑ n ∈ range d, at0 ref n) * X d i

/-- A moment of a cell as the loops compute it. -/
def momentForm (d : Nat) (rule : CubRule R) (axes : List Nat) (dens : R) (Z : Nat → R) (X : Nat → Nat → R) : R :=
  massForm fabs d rule dens Z X * (axes.map (pointForm d rule.coords X)).prod

omit [Div R] in
theorem cellMass_ok {npc c : Nat} {basis : List R} {z : V2 R} (hb : basis.length = npc) (hc : c < z.d0)
    (h1 : npc ≤ z.d1) :
    cellMass npc c basis z = .ok (∑ i ∈ range npc, ∑ j ∈ range npc, at0 basis i * at0 basis j * z.e c j) := by
  unfold cellMass
  have inner : ∀ i, i < npc → (forRange 0 npc (0 : R) fun j s => do
      let a ← rd basis i
      let b ← rd basis j
      let z ← vrd2 z c j
      pure (s + a * b * z)) = .ok (∑ j ∈ range npc, at0 basis i * at0 basis j * z.e c j) := by
    intro i hi
    have := forRange_eq (n := npc) (body := fun j (s : R) => do
      let a ← rd basis i
      let b ← rd basis j
      let z ← vrd2 z c j
      pure (s + a * b * z)) (fun k => ∑ j ∈ range k, at0 basis i * at0 basis j * z.e c j) (by
        intro k hk
        rw [rd_at0 (by omega), Res.ok_bind, rd_at0 (by omega), Res.ok_bind, vrd2_ok hc (by omega), Res.ok_bind,
          sum_range_succ]
        rfl)
    rw [sum_range_zero] at this
    exact this
  have := forRange_eq (n := npc) (body := fun i (m : R) => do
    let nodal ← forRange 0 npc (0 : R) fun j s => do
      let a ← rd basis i
      let b ← rd basis j
      let z ← vrd2 z c j
      pure (s + a * b * z)
    pure (m + nodal)) (fun k => ∑ i ∈ range k, ∑ j ∈ range npc, at0 basis i * at0 basis j * z.e c j) (by
      intro k hk
      rw [inner k hk, Res.ok_bind, sum_range_succ]
      rfl)
  rw [sum_range_zero] at this
  exact this

theorem massFactor_ok {d c : Nat} (hd : d = 1 ∨ d = 2 ∨ d = 3) {rule : CubRule R} (hb : rule.basis.length = d + 1)
    (dens : R) {z : V2 R} {x : V3 R} (hz : c < z.d0) (hz1 : d + 1 ≤ z.d1) (hx : c < x.d0) (hx1 : x.d1 = d + 1)
    (hx2 : x.d2 = d) :
    massFactor fabs d rule dens z x c = .ok (massForm fabs d rule dens (z.e c) (x.e c)) := by
  unfold massFactor
  rw [computeCellVolume_form fabs hd hx hx1 hx2, Res.ok_bind, cellMass_ok hb hz hz1, Res.ok_bind]
  rfl

omit [Div R] in
theorem sum_single_row (d : Nat) (f : Nat → R) (c : Nat) :
    (∑ i ∈ range d, (Pi.single i (f i) : Nat → R)) c = if c < d then f c else 0 := by
  rw [Finset.sum_apply]
  simp only [Pi.single_apply]
  rw [Finset.sum_ite_eq]
  simp

omit [Div R] in
theorem mapPoint_ok {d nc : Nat} {ref : List R} (hr : ref.length = d) {x : V3 R} (hx : nc ≤ x.d0) (hx1 : x.d1 = d + 1)
    (hx2 : x.d2 = d) {order : List Nat} (hs : IsSchedule order nc) {p : V2 R} (hp0 : nc ≤ p.d0) (hp1 : p.d1 = d) :
    (mapPoint d ref x order p).Sat fun q => q.d0 = p.d0 ∧ q.d1 = d ∧
      ∀ c i, c < nc → i < d → q.e c i = pointForm d ref (x.e c) i := by
  unfold mapPoint
  rw [parFor_rows hs (fun c f => f + ∑ n ∈ range d, (∑ i ∈ range d, (Pi.single i (at0 ref n * x.e c n i) : Nat → R)) +
    ∑ i ∈ range d, (Pi.single i ((1 - ∑ n ∈ range d, at0 ref n) * x.e c d i) : Nat → R))]
  · refine Res.Sat.ok ⟨rfl, hp1, fun c i hc hi => ?_⟩
    dsimp only
    rw [if_pos hc]
    unfold pointForm
    simp only [Pi.add_apply, Finset.sum_apply, Pi.single_apply, Finset.sum_ite_eq, mem_range, hi, if_true, zero_add]
  · intro c y hc h0 h1
    have row : ∀ (n : Nat) (v : R) (f : Nat → R), n < d + 1 → (forRange 0 d (y.row c f) fun i p => do
        let a ← vrd3 x c n i
        accum2 p c i (v * a)) = .ok (y.row c (f + ∑ i ∈ range d, (Pi.single i (v * x.e c n i) : Nat → R))) := by
      intro n v f hn
      refine forRange_addrow (fun i => Pi.single i (v * x.e c n i)) f fun i f hi => ?_
      rw [vrd3_ok (by omega) (by omega) (by omega), Res.ok_bind, accum2_row (by rw [h0]; dsimp only; omega) (by rw [h1]; dsimp only; omega)]
    have e : (y.row c (y.e c)) = y := V2.row_self y c
    have out := forRange_eq (n := d) (body := fun n (s : V2 R × R) => do
        let v ← rd ref n
        let p ← forRange 0 d s.1 fun i p => do
          let a ← vrd3 x c n i
          accum2 p c i (v * a)
        pure (p, s.2 - v))
      (fun k => (y.row c (y.e c + ∑ n ∈ range k, ∑ i ∈ range d, (Pi.single i (at0 ref n * x.e c n i) : Nat → R)),
        1 - ∑ n ∈ range k, at0 ref n)) (by
        intro k hk
        rw [rd_at0 (by omega), Res.ok_bind, row k _ _ (by omega), Res.ok_bind, sum_range_succ, sum_range_succ,
          add_assoc, ← sub_sub]
        rfl)
    rw [sum_range_zero, sum_range_zero, add_zero, sub_zero, e] at out
    rw [out, Res.ok_bind, row d _ _ (by omega)]

end Forms

section Evaluator
variable {R : Type} [CommRing R] [Div R] (fabs : R → R) {M : FeModel} (hdim : M.dim = 1 ∨ M.dim = 2 ∨ M.dim = 3)
  {rule : CubRule R} (hb : rule.basis.length = M.dim + 1) (hc : rule.coords.length = M.dim) (dens : Nat → R)
  {sch : Nat → Nat → List Nat} (hs : ∀ k j, IsSchedule (sch k j) (M.size (M.part k)))
include hdim hb hs

theorem mass_computes (dt : ℝ) : Computes M (fun k _ z x r _ => structuralMass fabs M.dim rule (dens k) (sch k 1) z x r) dt
    fun k _ Z X => momentForm fabs M.dim rule [] (dens k) Z X := by
  intro k s z x hk hp
  have hnp : M.npc = M.dim + 1 := rfl
  have := hp.z0
  have := hp.z1
  have := hp.x0
  have := hp.x1
  have := hp.x2
  unfold structuralMass
  refine parFor_map (hs k 1) (fun c _ => momentForm fabs M.dim rule [] (dens k) (z.e c) (x.e c)) ?_ (by simp)
  intro c y hc hy
  rw [massFactor_ok fabs hdim hb (dens k) (by omega) (by omega) (by omega) (by omega) (by omega), Res.ok_bind,
    wr_eq (by omega)]
  unfold momentForm
  simp

include hc

theorem first_computes {i : Nat} (hi : i < M.dim) (dt : ℝ) :
    Computes M (fun k _ z x r _ => firstMoment fabs M.dim rule (dens k) (sch k) i z x r) dt
      fun k _ Z X => momentForm fabs M.dim rule [i] (dens k) Z X := by
  intro k s z x hk hp
  have hnp : M.npc = M.dim + 1 := rfl
  have := hp.z0
  have := hp.z1
  have := hp.x0
  have := hp.x1
  have := hp.x2
  unfold firstMoment
  refine (mapPoint_ok hc (by omega) (by omega) (by omega) (hs k 0) (p := ⟨x.d0, M.dim, fun _ _ => 0⟩)
    (by dsimp only; omega) rfl).bind fun q ⟨q0, q1, hq⟩ => ?_
  dsimp only at q0
  refine parFor_map (hs k 1) (fun c _ => momentForm fabs M.dim rule [i] (dens k) (z.e c) (x.e c)) ?_ (by simp)
  intro c y hc hy
  rw [massFactor_ok fabs hdim hb (dens k) (by omega) (by omega) (by omega) (by omega) (by omega), Res.ok_bind,
    vrd2_ok (by omega) (by omega), Res.ok_bind, wr_eq (by omega), hq c i hc hi]
  unfold momentForm
  simp

theorem second_computes {i j : Nat} (hi : i < M.dim) (hj : j < M.dim) (dt : ℝ) :
    Computes M (fun k _ z x r _ => secondMoment fabs M.dim rule (dens k) (sch k) i j z x r) dt
      fun k _ Z X => momentForm fabs M.dim rule [i, j] (dens k) Z X := by
  intro k s z x hk hp
  have hnp : M.npc = M.dim + 1 := rfl
  have := hp.z0
  have := hp.z1
  have := hp.x0
  have := hp.x1
  have := hp.x2
  unfold secondMoment
  refine (mapPoint_ok hc (by omega) (by omega) (by omega) (hs k 0) (p := ⟨x.d0, M.dim, fun _ _ => 0⟩)
    (by dsimp only; omega) rfl).bind fun q ⟨q0, q1, hq⟩ => ?_
  dsimp only at q0
  refine parFor_map (hs k 1) (fun c _ => momentForm fabs M.dim rule [i, j] (dens k) (z.e c) (x.e c)) ?_ (by simp)
  intro c y hc hy
  rw [massFactor_ok fabs hdim hb (dens k) (by omega) (by omega) (by omega) (by omega) (by omega), Res.ok_bind,
    vrd2_ok (by omega) (by omega), Res.ok_bind, vrd2_ok (by omega) (by omega), Res.ok_bind, wr_eq (by omega),
    hq c i hc hi, hq c j hc hj]
  unfold momentForm
  simp

/-- The evaluator computes the moment of its type. -/
theorem moment_computes {type : String} {axes : List Nat} (ht : axesOf type = some axes) (ha : ∀ i ∈ axes, i < M.dim)
    (dt : ℝ) : Computes M (momentEval fabs M.dim rule dens type sch) dt
      fun k _ Z X => momentForm fabs M.dim rule axes (dens k) Z X := by
  unfold axesOf at ht
  split at ht <;> cases ht
  · exact mass_computes fabs hdim hb dens hs dt
  · exact first_computes fabs hdim hb hc dens hs (ha 0 (by simp)) dt
  · exact first_computes fabs hdim hb hc dens hs (ha 1 (by simp)) dt
  · exact first_computes fabs hdim hb hc dens hs (ha 2 (by simp)) dt
  · exact second_computes fabs hdim hb hc dens hs (ha 0 (by simp)) (ha 0 (by simp)) dt
  · exact second_computes fabs hdim hb hc dens hs (ha 1 (by simp)) (ha 1 (by simp)) dt
  · exact second_computes fabs hdim hb hc dens hs (ha 2 (by simp)) (ha 2 (by simp)) dt
  · exact second_computes fabs hdim hb hc dens hs (ha 0 (by simp)) (ha 1 (by simp)) dt
  · exact second_computes fabs hdim hb hc dens hs (ha 0 (by simp)) (ha 2 (by simp)) dt
  · exact second_computes fabs hdim hb hc dens hs (ha 1 (by simp)) (ha 2 (by simp)) dt

end Evaluator

/-! ## The rule -/

/-- What the loops need from the cubature rule. -/
structure RuleOk (d : Nat) (rule : CubRule ℝ) : Prop where
  basis : rule.basis.length = d + 1
  coords : rule.coords.length = d
  weight : rule.weight = 1 / (d.factorial : ℝ)
  basisAt : ∀ i, i < d + 1 → at0 rule.basis i = 1 / (d + 1 : ℝ)
  coordsAt : ∀ i, i < d → at0 rule.coords i = 1 / (d + 1 : ℝ)

theorem ruleOk {d : Nat} (hd : d = 1 ∨ d = 2 ∨ d = 3) {rule : CubRule ℝ} (hr : linearTetCubRule d = .ok rule) :
    RuleOk d rule := by
  have hw := Plato.Bnd.cubWeight_eq hd hr
  rcases hd with rfl | rfl | rfl <;> cases hr <;> refine ⟨rfl, rfl, hw, fun i hi => ?_, fun i hi => ?_⟩ <;>
    interval_cases i <;> norm_num [at0]

theorem massForm_rule {d : Nat} {rule : CubRule ℝ} (h : RuleOk d rule) (dens : ℝ) (Z : Nat → ℝ) (X : Nat → Nat → ℝ) :
    massForm abs d rule dens Z X = dens * meanDensity (d + 1) Z * (|detForm d X| / d.factorial) := by
  have e : ∑ i ∈ range (d + 1), ∑ j ∈ range (d + 1), at0 rule.basis i * at0 rule.basis j * Z j =
      meanDensity (d + 1) Z := by
    rw [sum_congr rfl fun i hi => by
      rw [sum_congr rfl fun j hj => by rw [h.basisAt i (mem_range.1 hi), h.basisAt j (mem_range.1 hj)]]]
    rw [sum_const, card_range, ← mul_sum, nsmul_eq_mul]
    unfold meanDensity
    have : (d + 1 : ℝ) ≠ 0 := by positivity
    push_cast
    field_simp
  unfold massForm
  rw [e, h.weight]
  ring

theorem pointForm_rule {d : Nat} {rule : CubRule ℝ} (h : RuleOk d rule) (X : Nat → Nat → ℝ) {i : Nat} (hi : i < d) :
    pointForm d rule.coords X i = cellCentre d X i := by
  have : (d + 1 : ℝ) ≠ 0 := by positivity
  unfold pointForm cellCentre
  rw [if_pos hi, sum_congr rfl fun n hn => by rw [h.coordsAt n (mem_range.1 hn)],
    sum_congr rfl (fun n hn => h.coordsAt n (mem_range.1 hn) : ∀ n ∈ range d, at0 rule.coords n = _),
    sum_const, card_range, nsmul_eq_mul, sum_range_succ, ← mul_sum]
  field_simp
  ring

end Plato.Mass
