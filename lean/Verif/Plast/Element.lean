import Verif.Plast.Model
import Verif.J2.Element
import Verif.Tm.Element

/-!
# The residual of plasticity: closed forms of the functors and of `evaluate`
-/

namespace Plato.Plast
open Finset Plato Plato.Mech Plato.Thermal Plato.J2 Plato.Dyn
open Plato.Tm (fluxRow heatRow)

variable {R : Type} [CommRing R]

/-! ## Specification -/

/-- Forces of a pressure on the nodes; `v` is the volume. -/
def pressRow (d ndof : Nat) (v p : R) (G : Nat → Nat → R) : Nat → R :=
  ∑ k ∈ range d, ∑ n ∈ range (d + 1), Pi.single (n * ndof + k + 0) (1 * v * p * G n k)

section Spec
variable (P : Plast R)

/-- Gradient of the field at `off` of the unknowns of a node. -/
def Plast.gradOf [Div R] (off : Nat) (U : Nat → R) (X : Nat → Nat → R) (k : Nat) : R :=
  scalarField P.d (fun n => U (n * P.ndof + off)) (gradForm P.d X) k

/-- Value at the integration point of the field at `off` of the unknowns of a node. -/
def Plast.valueOf (off : Nat) (U : Nat → R) : R :=
  interp (P.d + 1) (at0 P.mat.basis) fun n => U (P.ndof * n + off)

/-- Projected gradient at the integration point. -/
def Plast.projOf (N : Nat → R) (i : Nat) : R := interp (P.d + 1) (at0 P.mat.basis) fun n => N (P.d * n + 0 + i)

/-- Volume of a cell. -/
def Plast.volOf [Div R] (fabs : R → R) (X : Nat → Nat → R) : R := fabs (detForm P.d X) * P.cubWeight

/-- Penalty of a cell. -/
def Plast.penOf [Div R] (Z : Nat → R) : R := P.pen (meanDensity (P.d + 1) Z)

/-- Elastic strain of a cell. -/
def Plast.elasticAt [Div R] (U C : Nat → R) (X : Nat → Nat → R) : Nat → R := P.mat.elasticOf (P.mat.total U X) U C

/-- Deviatoric stress of a cell. -/
def Plast.devOf [Div R] (U C Z : Nat → R) (X : Nat → Nat → R) : Nat → R :=
  devForm P.d (P.penOf Z * P.mat.shear) (P.elasticAt U C X)

/-- Divergence of the displacements. -/
def Plast.divOf [Div R] (U : Nat → R) (X : Nat → Nat → R) : R := ∑ k ∈ range P.d, P.mat.total U X k

/-- Thermal change of volume. -/
def Plast.thermVolOf (U : Nat → R) : R :=
  if P.mat.thermal then 3 * P.mat.alpha * (P.mat.tscale * P.valueOf P.d U - P.mat.tref) else 0

/-- Pressure of a cell. -/
def Plast.pressOf (U : Nat → R) : R := P.valueOf P.poff U * P.kappa

/-- Difference of the changes of volume. -/
def Plast.gapOf [Div R] (U Z : Nat → R) (X : Nat → Nat → R) : R :=
  P.kappa * (P.divOf U X - P.thermVolOf U - P.pressOf U / (P.penOf Z * P.bulk))

/-- Stabilisation. -/
def Plast.stabOf [Div R] (fabs pow23 : R → R) (U N Z : Nat → R) (X : Nat → Nat → R) (k : Nat) : R :=
  P.kappa * (pow23 (P.volOf fabs X) / (2 * P.mat.shear)) * (P.kappa * P.gradOf P.poff U X k - P.projOf N k) * P.penOf Z

/-- Heat flux. -/
def Plast.fluxOf [Div R] (U Z : Nat → R) (X : Nat → Nat → R) (k : Nat) : R :=
  -1 * (P.penOf Z * P.cond) * P.mat.tscale * P.gradOf P.d U X k

/-- What the loop over the cells adds to a row. -/
def Plast.solidRow [Div R] (fabs pow23 : R → R) (U C N Z : Nat → R) (X : Nat → Nat → R) : Nat → R :=
  stressRow P.d P.ndof (P.volOf fabs X) (P.devOf U C Z X) (gradForm P.d X) +
    (if P.mat.thermal then
      fluxRow P.d P.ndof P.d (P.volOf fabs X) (fun k => -P.fluxOf U Z X k) (gradForm P.d X) else 0) +
    pressRow P.d P.ndof (P.volOf fabs X) (P.pressOf U) (gradForm P.d X) +
    fluxRow P.d P.ndof P.poff (P.volOf fabs X) (fun k => -P.stabOf fabs pow23 U N Z X k) (gradForm P.d X) +
    heatRow P.d P.ndof P.poff (at0 P.mat.basis) (P.volOf fabs X) (P.gapOf U Z X)

/-- All body loads. -/
def Plast.loadRow [Div R] (c gc : Nat) (Z : Nat → R) : Nat → R :=
  (P.bodyLoads.map fun L => L.row P.d P.ndof c gc Z (-1 * P.load)).sum

/-- Row of the residual. -/
def Plast.row [Div R] (fabs pow23 : R → R) (c gc : Nat) (U C N Z : Nat → R) (X : Nat → Nat → R) : Nat → R :=
  P.solidRow fabs pow23 U C N Z X + P.loadRow c gc Z

/-- Stress of `ComputeCauchyStress`. -/
def cauchyForm [Div R] (d : Nat) (bulk shear : R) (E : Nat → R) (t : Nat) : R :=
  if isNormal d t then 2 * shear * (E t - (E 0 + E 1 + E 3) / 3) + bulk * (E 0 + E 1 + E 3) else shear * E t

end Spec

/-! ## Views -/

/-- `y'` is `y` with the first `n` entries of row `c` replaced by `f`. -/
structure RowOf (y : V2 R) (c n : Nat) (f : Nat → R) (y' : V2 R) : Prop where
  d0 : y'.d0 = y.d0
  d1 : y'.d1 = y.d1
  val : ∀ t, t < n → y'.e c t = f t
  other : ∀ r, r ≠ c → y'.e r = y.e r

/-- `v'` is `v` with entry `c` replaced by `a`. -/
structure EntryOf (v : List R) (c : Nat) (a : R) (v' : List R) : Prop where
  length : v'.length = v.length
  val : at0 v' c = a
  other : ∀ r, r ≠ c → at0 v' r = at0 v r

omit [CommRing R] in
theorem rowOf_row {y : V2 R} {c n : Nat} {f g : Nat → R} :
    RowOf y c n f (y.row c fun t => if t < n then f t else g t) :=
  ⟨rfl, rfl, fun t ht => by simp [V2.row, ht], fun r hr => by simp [V2.row, hr]⟩

theorem entryOf_set {v : List R} {c : Nat} {a : R} (h : c < v.length) : EntryOf v c a (v.set c a) :=
  ⟨List.length_set, by rw [at0_set h, if_pos rfl], fun r hr => by rw [at0_set h, if_neg hr]⟩

omit [CommRing R] in
theorem RowOf.trans {y y' y'' : V2 R} {c n m : Nat} {f g : Nat → R} (a : RowOf y c n f y') (b : RowOf y' c m g y'') :
    RowOf y c m g y'' :=
  ⟨b.d0.trans a.d0, b.d1.trans a.d1, b.val, fun r hr => (b.other r hr).trans (a.other r hr)⟩

theorem EntryOf.trans {v v' v'' : List R} {c : Nat} {a b : R} (h : EntryOf v c a v') (k : EntryOf v' c b v'') :
    EntryOf v c b v'' :=
  ⟨k.length.trans h.length, k.val, fun r hr => (k.other r hr).trans (h.other r hr)⟩

omit [CommRing R] in
theorem RowOf.congr {y y' : V2 R} {c n : Nat} {f g : Nat → R} (a : RowOf y c n f y') (h : ∀ t, t < n → f t = g t) :
    RowOf y c n g y' := ⟨a.d0, a.d1, fun t ht => (a.val t ht).trans (h t ht), a.other⟩

theorem EntryOf.congr {v v' : List R} {c : Nat} {a b : R} (h : EntryOf v c a v') (e : a = b) : EntryOf v c b v' := e ▸ h

theorem wr_entry {v : List R} {c : Nat} (h : c < v.length) (a : R) : (wr v c a).Sat (EntryOf v c a) := by
  rw [wr_eq h, Res.sat_ok]; exact entryOf_set h

/-! ## Functors -/

section Functors
variable {d c : Nat}

theorem scalarGradAt_ok {ndof off : Nat} {state out : V2 R} {g : V3 R} (hc : c < out.d0) (h1 : d ≤ out.d1)
    (hs : c < state.d0) (hs1 : (d + 1) * ndof ≤ state.d1) (hoff : off < ndof)
    (hg : c < g.d0) (hg1 : g.d1 = d + 1) (hg2 : g.d2 = d)
    {G : Nat → Nat → R} (hG : ∀ n k, n < d + 1 → k < d → g.e c n k = G n k) :
    (scalarGradAt d ndof off c state g out).Sat
      (RowOf out c d (scalarField d (fun n => state.e c (n * ndof + off)) G)) := by
  unfold scalarGradAt
  conv => enter [1]; rw [← V2.row_self out c]
  rw [forRange_row (fun k _ => ∑ n ∈ range (d + 1), state.e c (n * ndof + off) * g.e c n k), Res.sat_ok]
  · refine rowOf_row.congr fun k hk => ?_
    unfold scalarField
    exact sum_congr rfl fun n hn => by rw [hG n k (mem_range.1 hn) hk]
  intro k f hk
  rw [vwr2_row hc (by omega), Res.ok_bind,
    forRange_addrow (fun n => Pi.single k (state.e c (n * ndof + off) * g.e c n k)) _ (by
      intro n f hn
      have := dof_lt (d := d) (ndof := ndof) (i := off) hn hoff
      rw [vrd2_ok hs (by omega), Res.ok_bind, vrd3_ok hg (by omega) (by omega), Res.ok_bind]
      exact accum2_row hc (by omega))]
  congr 2
  funext r
  by_cases h : r = k
  · subst h; simp
  · simp [h]

theorem strainDivergence_ok (hd : d = 2 ∨ d = 3) {e : V2 R} {out : List R} (he : c < e.d0) (he1 : d ≤ e.d1)
    (ho : c < out.length) :
    (strainDivergence d c e out).Sat (EntryOf out c (∑ k ∈ range d, e.e c k)) := by
  have hb : ∀ a ∈ divTable d, a < d := by rcases hd with rfl | rfl <;> decide
  unfold strainDivergence
  rw [foldlM_acc (fun i => e.e c i), Res.ok_bind]
  · refine (wr_entry ho _).mono fun v hv => hv.congr ?_
    rcases hd with rfl | rfl <;> simp [divTable, sum_range_succ]
  · intro a ha s
    have := hb a ha
    rw [vrd2_ok he (by omega), Res.ok_bind, Res.pure_eq]

theorem stabilization_ok [Div R] (pow23 : R → R) (kappa shear : R) {vol : List R} {pgrad proj out : V2 R}
    (hv : c < vol.length) (hp : c < pgrad.d0) (hp1 : d ≤ pgrad.d1) (hq : c < proj.d0) (hq1 : d ≤ proj.d1)
    (ho : c < out.d0) (ho1 : d ≤ out.d1) :
    (stabilization pow23 kappa shear d c vol pgrad proj out).Sat (RowOf out c d fun k =>
      kappa * (pow23 (at0 vol c) / (2 * shear)) * (kappa * pgrad.e c k - proj.e c k)) := by
  unfold stabilization
  rw [rd_at0 hv, Res.ok_bind]
  dsimp only
  conv => enter [1]; rw [← V2.row_self out c]
  rw [forRange_row (fun k _ => kappa * (pow23 (at0 vol c) / (2 * shear)) * (kappa * pgrad.e c k - proj.e c k)),
    Res.sat_ok]
  · exact rowOf_row
  intro k f hk
  rw [vrd2_ok hp (by omega), Res.ok_bind, vrd2_ok hq (by omega), Res.ok_bind, vwr2_row ho (by omega)]

theorem applyPenalty_ok {n : Nat} (pen : R) {out : V2 R} (ho : c < out.d0) (ho1 : n ≤ out.d1) :
    (applyPenalty n c pen out).Sat (RowOf out c n fun k => out.e c k * pen) := by
  unfold applyPenalty
  conv => enter [1]; rw [← V2.row_self out c]
  rw [forRange_row (fun k v => v * pen), Res.sat_ok]
  · exact rowOf_row
  intro k f hk
  rw [vrd2_row ho (by omega), Res.ok_bind, vwr2_row ho (by omega)]
  congr 2
  funext r
  by_cases h : r = k <;> simp [h]

theorem pressureDivergence_ok {ndof : Nat} {out : V2 R} {p vol : List R} {g : V3 R} (hc : c < out.d0)
    (h1 : (d + 1) * ndof ≤ out.d1) (hdn : d ≤ ndof) (hp : c < p.length) (hv : c < vol.length)
    (hg : c < g.d0) (hg1 : g.d1 = d + 1) (hg2 : g.d2 = d)
    {G : Nat → Nat → R} (hG : ∀ n k, n < d + 1 → k < d → g.e c n k = G n k) {a v : R} (ha : at0 p c = a)
    (hvol : at0 vol c = v) :
    pressureDivergence d ndof 0 c out p g vol 1 = .ok (out.row c (out.e c + pressRow d ndof v a G)) := by
  unfold pressureDivergence
  conv_lhs => rw [← V2.row_self out c]
  rw [forRange_addrow (fun k => ∑ n ∈ range (d + 1), Pi.single (n * ndof + k + 0) (1 * v * a * g.e c n k))]
  · congr 3
    unfold pressRow
    exact sum_congr rfl fun k hk => sum_congr rfl fun n hn => by rw [hG n k (mem_range.1 hn) (mem_range.1 hk)]
  intro k f hk
  refine forRange_addrow _ _ fun n f hn => ?_
  rw [rd_at0 hv, Res.ok_bind, rd_at0 hp, Res.ok_bind, vrd3_ok hg (by omega) (by omega), Res.ok_bind, hvol, ha]
  have := dof_lt (d := d) (ndof := ndof) (i := k) hn (by omega)
  exact accum2_row hc (by omega)

/-- `stressDivergence_row` for a stress with further columns. -/
theorem stressDivergence_le {ndof : Nat} {T : V2 Nat} {out stress : V2 R} {g : V3 R}
    {vol : List R} (hd : d = 1 ∨ d = 2 ∨ d = 3) (hT0 : T.d0 = d) (hT1 : T.d1 = d)
    (hT : ∀ i j, i < d → j < d → T.e i j = voigtIndex d i j) (ho : c < out.d0)
    (ho1 : (d + 1) * ndof ≤ out.d1) (hoff : d ≤ ndof) (hs : c < stress.d0)
    (hs1 : numVoigt d ≤ stress.d1) (hg : c < g.d0) (hg1 : g.d1 = d + 1) (hg2 : g.d2 = d)
    (hv : c < vol.length) {σ : Nat → R} {G : Nat → Nat → R} {v : R}
    (hσ : ∀ t, t < numVoigt d → stress.e c t = σ t)
    (hG : ∀ n j, n < d + 1 → j < d → g.e c n j = G n j) (hvol : at0 vol c = v) :
    stressDivergence d ndof 0 T c out stress g vol 1 = .ok (out.row c (out.e c + stressRow d ndof v σ G)) := by
  have e : stressDivergence d ndof 0 T c out stress g vol 1 =
      .ok (out.row c (out.e c + ∑ i ∈ range d, ∑ n ∈ range (d + 1), Pi.single (n * ndof + i + 0)
        (1 * at0 vol c * nodalForce d (stress.e c) (g.e c) n i))) := by
    rw [stressDivergence]
    conv_lhs => rw [← V2.row_self out c]
    refine forRange_addrow _ _ fun i f hi => forRange_addrow _ _ fun n f hn => ?_
    rw [forRange_addrow (fun j => Pi.single (n * ndof + i + 0)
      (1 * at0 vol c * stress.e c (voigtIndex d i j) * g.e c n j)) _ (by
        intro j f hj
        rw [rd_at0 hv, vrd2_ok (y := T) (by omega) (by omega), hT i j hi hj]
        simp only [Res.ok_bind]
        rw [vrd2_ok hs ((voigtIndex_lt hd hi hj).trans_le hs1), vrd3_ok hg (by omega) (by omega)]
        simp only [Res.ok_bind]
        refine accum2_row ho ?_
        rw [add_assoc]
        exact (dof_lt hn (by omega)).trans_le ho1)]
    congr 3
    rw [nodalForce, mul_sum]
    generalize n * ndof + i + 0 = q
    funext r
    by_cases h : r = q
    · subst h; simp [mul_assoc]
    · simp [h]
  rw [e, hvol]
  congr 3
  unfold stressRow
  refine sum_congr rfl fun i hi => sum_congr rfl fun n hn => ?_
  rw [nodalForce_congr hd (mem_range.1 hi) hσ fun j hj => hG n j (mem_range.1 hn) hj]

/-- `FluxDivergence` with the sign changed. -/
theorem fluxDivergence_neg {ndof off : Nat} {out flux : V2 R} {g : V3 R} {vol : List R}
    (hc : c < out.d0) (h1 : ∀ n, n < d + 1 → n * ndof + off < out.d1) (hf : c < flux.d0) (hf1 : flux.d1 = d)
    (hg : c < g.d0) (hg1 : g.d1 = d + 1) (hg2 : g.d2 = d) (hv : c < vol.length) {v : R} {q : Nat → R}
    {G : Nat → Nat → R} (hq : ∀ k, k < d → flux.e c k = q k)
    (hG : ∀ n k, n < d + 1 → k < d → g.e c n k = G n k) (hvol : at0 vol c = v) :
    fluxDivergence d ndof off c out flux g vol (-1) =
      .ok (out.row c (out.e c + fluxRow d ndof off v (fun k => -q k) G)) := by
  have hp := fluxDivergence_ok (scale := (-1 : R)) hc h1 hf hf1 hg hg1 hg2 hv (out.e c)
  rw [V2.row_self] at hp
  rw [hp, hvol]
  congr 3
  unfold fluxRow
  refine sum_congr rfl fun n hn => ?_
  congr 2
  rw [sum_congr rfl fun k hk => (by rw [hq k (mem_range.1 hk), hG n k (mem_range.1 hn) (mem_range.1 hk)] :
    flux.e c k * g.e c n k = q k * G n k)]
  simp only [neg_mul, one_mul, sum_neg_distrib]

theorem project1_form {ndof off : Nat} {vol basis state : List R} {out : V2 R}
    (hc : c < out.d0) (hb : d + 1 ≤ basis.length) (hv : c < vol.length) (hs : c < state.length)
    (h1 : ∀ n, n < d + 1 → ndof * n + off < out.d1) {v a : R} (hvol : at0 vol c = v) (ha : at0 state c = a) :
    project1 (d + 1) ndof off c vol basis state out 1 =
      .ok (out.row c (out.e c + heatRow d ndof off (at0 basis) v a)) := by
  have hp := project1_ok (scale := (1 : R)) hc hb hv hs h1 (out.e c)
  rw [V2.row_self] at hp
  rw [hp, hvol, ha]
  rfl

theorem cauchyStress_ok [Div R] (hd : d = 2 ∨ d = 3) (bulk shear : R) {e s : V2 R} (he : c < e.d0)
    (he1 : e.d1 = stressTerms d) (hs : c < s.d0) (hs1 : s.d1 = stressTerms d) :
    (cauchyStress d c bulk shear e s).Sat (RowOf s c (stressTerms d) (cauchyForm d bulk shear (e.e c))) := by
  have hb : ∀ a ∈ cauchyNormal d, a < stressTerms d := by rcases hd with rfl | rfl <;> decide
  have hb2 : ∀ a ∈ cauchyShear d, a < stressTerms d := by rcases hd with rfl | rfl <;> decide
  have ht : (cauchyTrace d).1 < stressTerms d ∧ (cauchyTrace d).2.1 < stressTerms d ∧
      (cauchyTrace d).2.2 < stressTerms d := by rcases hd with rfl | rfl <;> decide
  unfold cauchyStress
  rw [vrd2_ok he (by omega), Res.ok_bind, vrd2_ok he (by omega), Res.ok_bind, vrd2_ok he (by omega), Res.ok_bind]
  dsimp only
  set tr := e.e c (cauchyTrace d).1 + e.e c (cauchyTrace d).2.1 + e.e c (cauchyTrace d).2.2 with htr
  conv => enter [1]; rw [← V2.row_self s c]
  rw [foldlM_row (fun a => a) (fun a _ => 2 * shear * (e.e c a - tr / 3)) (cauchyNormal d) _ (by
      intro a ha f
      have := hb a ha
      rw [vrd2_ok he (by omega), Res.ok_bind, vwr2_row hs (by omega)]), Res.ok_bind,
    foldlM_row (fun a => a) (fun a f => f a + bulk * tr) (cauchyNormal d) _ (by
      intro a ha f
      have := hb a ha
      rw [vrd2_row hs (by omega), Res.ok_bind, vwr2_row hs (by omega)]), Res.ok_bind,
    foldlM_row (fun a => a) (fun a _ => shear * e.e c a) (cauchyShear d) _ (by
      intro a ha f
      have := hb2 a ha
      rw [vrd2_ok he (by omega), Res.ok_bind, vwr2_row hs (by omega)]), Res.sat_ok]
  refine ⟨rfl, rfl, fun t h => ?_, fun r hr => by simp [V2.row, hr]⟩
  rw [row_e]
  rcases hd with rfl | rfl
  · change t < 4 at h
    interval_cases t <;> simp [cauchyNormal, cauchyShear, cauchyForm, isNormal, htr, cauchyTrace]
  · change t < 6 at h
    interval_cases t <;> simp [cauchyNormal, cauchyShear, cauchyForm, isNormal, htr, cauchyTrace]

theorem plasticTable_ok (hd : d = 2 ∨ d = 3) {locl out : V2 R} (hl : c < locl.d0) (hl1 : locl.d1 = localDofs d)
    (ho : c < out.d0) (ho1 : out.d1 = stressTerms d) :
    (copyTable (plasticStrainTable d) c locl out).Sat (RowOf out c (stressTerms d) fun t => locl.e c (2 + t)) := by
  have hb : ∀ a ∈ plasticStrainTable d, a.1 < stressTerms d ∧ a.2 < localDofs d := by
    rcases hd with rfl | rfl <;> decide
  unfold copyTable
  conv => enter [1]; rw [← V2.row_self out c]
  rw [foldlM_row (fun a => a.1) (fun a _ => locl.e c a.2) (plasticStrainTable d) _ (by
      intro a ha f
      have := hb a ha
      rw [vrd2_ok hl (by omega), Res.ok_bind, vwr2_row ho (by omega)]), Res.sat_ok]
  refine ⟨rfl, rfl, fun t h => ?_, fun r hr => by simp [V2.row, hr]⟩
  rw [row_e]
  rcases hd with rfl | rfl
  · change t < 4 at h
    interval_cases t <;> simp [plasticStrainTable]
  · change t < 6 at h
    interval_cases t <;> simp [plasticStrainTable]

theorem backTable_ok (hd : d = 2 ∨ d = 3) {locl out : V2 R} (hl : c < locl.d0) (hl1 : locl.d1 = localDofs d)
    (ho : c < out.d0) (ho1 : out.d1 = stressTerms d) :
    (copyTable (backstressTable d) c locl out).Sat
      (RowOf out c (stressTerms d) fun t => locl.e c (2 + stressTerms d + t)) := by
  have hb : ∀ a ∈ backstressTable d, a.1 < stressTerms d ∧ a.2 < localDofs d := by
    rcases hd with rfl | rfl <;> decide
  unfold copyTable
  conv => enter [1]; rw [← V2.row_self out c]
  rw [foldlM_row (fun a => a.1) (fun a _ => locl.e c a.2) (backstressTable d) _ (by
      intro a ha f
      have := hb a ha
      rw [vrd2_ok hl (by omega), Res.ok_bind, vwr2_row ho (by omega)]), Res.sat_ok]
  refine ⟨rfl, rfl, fun t h => ?_, fun r hr => by simp [V2.row, hr]⟩
  rw [row_e]
  rcases hd with rfl | rfl
  · change t < 4 at h
    interval_cases t <;> simp [backstressTable, stressTerms]
  · change t < 6 at h
    interval_cases t <;> simp [backstressTable, stressTerms]

end Functors

end Plato.Plast
