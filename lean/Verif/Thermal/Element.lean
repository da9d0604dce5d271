import Verif.Thermal.Functors
import Verif.Mech.Rows

/-!
# The residuals of heat conduction, cell by cell

Closed forms of `ThermostaticResidual::evaluate` and `HeatEquationResidual::evaluate`.
-/

namespace Plato.Thermal
open Finset Plato Plato.Mech

variable {R : Type} [CommRing R] [Div R] (fabs : R → R)

/-! ## Specification -/

section Spec
variable (P : Thermal R)

/-- Volume of a cell with nodes `X`. -/
def Thermal.volForm (X : Nat → Nat → R) : R := fabs (detForm P.d X) * P.cubWeight

/-- Temperature at the integration point. -/
def Thermal.point (U : Nat → R) : R := interp (P.d + 1) (at0 P.basis) U

/-- Temperature gradient. -/
def Thermal.gradT (U : Nat → R) (X : Nat → Nat → R) (k : Nat) : R := scalarField P.d U (gradForm P.d X) k

/-- Penalised flux of the conductivity `K`. -/
def Thermal.fluxForm (K : Nat → Nat → R) (U Z : Nat → R) (X : Nat → Nat → R) (k : Nat) : R :=
  fourier P.d K (P.gradT U X) k * P.pen (meanDensity (P.d + 1) Z)

/-- What conduction with the conductivity `K` adds to the row of a cell. -/
def Thermal.condRow (K : Nat → Nat → R) (U Z : Nat → R) (X : Nat → Nat → R) : Nat → R :=
  ∑ n ∈ range (P.d + 1), Pi.single (n * 1 + 0)
    (-1 * (∑ k ∈ range P.d, P.fluxForm K U Z X k * gradForm P.d X n k) * P.volForm fabs X)

/-- Rate of the heat content per volume. -/
def MassLaw.rateOf (m : MassLaw R) (T r : R) : R :=
  if m.nonlinear then r * m.rhoFn.at T * m.cpFn.at T else r * m.rho * m.cp

/-- What storage adds to the row of a cell. -/
def Thermal.storageRow (U V Z : Nat → R) (X : Nat → Nat → R) : Nat → R :=
  ∑ n ∈ range (P.d + 1), Pi.single (1 * n + 0)
    (1 * at0 P.basis n * (P.mass.rateOf (P.point U) (P.point V) * P.pen (meanDensity (P.d + 1) Z)) *
      P.volForm fabs X)

/-- All body loads. -/
def Thermal.loadRow (c gc : Nat) (Z : Nat → R) : Nat → R :=
  (P.bodyLoads.map fun L => L.row P.d 1 c gc Z (-1)).sum

/-- Row of the thermostatic residual. -/
def Thermal.staticRow (c gc : Nat) (U Z : Nat → R) (X : Nat → Nat → R) : Nat → R :=
  P.condRow fabs (P.law.cond (P.point U)) U Z X + P.loadRow c gc Z

/-- Row of the residual of the heat equation. -/
def Thermal.heatRow (U V Z : Nat → R) (X : Nat → Nat → R) : Nat → R :=
  P.condRow fabs P.law.const U Z X + P.storageRow fabs U V Z X

end Spec

/-! ## The loops -/

/-- Extents of the views. -/
structure TViews.Ok (d nc : Nat) (w : TViews R) : Prop where
  g0 : w.grad.d0 = nc
  g1 : w.grad.d1 = d + 1
  g2 : w.grad.d2 = d
  v : w.vol.length = nc
  t0 : w.tgrad.d0 = nc
  t1 : w.tgrad.d1 = d
  f0 : w.flux.d0 = nc
  f1 : w.flux.d1 = d
  temp : w.temp.length = nc
  rate : w.rate.length = nc
  energy : w.energy.length = nc

omit [Div R] in
theorem TViews.new_ok (d nc : Nat) : (TViews.new d nc : TViews R).Ok d nc :=
  ⟨rfl, rfl, rfl, List.length_replicate, rfl, rfl, rfl, rfl, List.length_replicate, List.length_replicate,
    List.length_replicate⟩

theorem fluxDivergence_row {d ndof off c : Nat} {out flux : V2 R} {g : V3 R} {vol : List R} {scale : R}
    (hc : c < out.d0) (h1 : ∀ n, n < d + 1 → n * ndof + off < out.d1) (hf : c < flux.d0) (hf1 : flux.d1 = d)
    (hg : c < g.d0) (hg1 : g.d1 = d + 1) (hg2 : g.d2 = d) (hv : c < vol.length) :
    fluxDivergence d ndof off c out flux g vol scale = .ok (out.row c (out.e c +
      ∑ n ∈ range (d + 1), Pi.single (n * ndof + off)
        (scale * (∑ k ∈ range d, flux.e c k * g.e c n k) * at0 vol c))) := by
  have hp := fluxDivergence_ok (scale := scale) hc h1 hf hf1 hg hg1 hg2 hv (out.e c)
  rwa [V2.row_self] at hp

omit [Div R] in
theorem fourier_congr {d : Nat} {K : Nat → Nat → R} {g g' : Nat → R} (h : ∀ k, k < d → g k = g' k) (i : Nat) :
    fourier d K g i = fourier d K g' i := by
  unfold fourier
  congr 1
  exact sum_congr rfl fun j hj => by rw [h j (mem_range.1 hj)]

omit [Div R] in
theorem scalarField_congr {d : Nat} {T T' : Nat → R} {G G' : Nat → Nat → R} {k : Nat}
    (hT : ∀ n, n < d + 1 → T n = T' n) (hG : ∀ n, n < d + 1 → G n k = G' n k) :
    scalarField d T G k = scalarField d T' G' k := by
  unfold scalarField
  exact sum_congr rfl fun n hn => by rw [hT n (mem_range.1 hn), hG n (mem_range.1 hn)]

variable {P : Thermal R} (hd : P.d = 1 ∨ P.d = 2 ∨ P.d = 3) {nc : Nat} {state rate control : V2 R}
  {config : V3 R} (hb : P.basis.length = P.d + 1)
include hd hb

theorem staticCell_ok (hw : WsOk P.d 1 nc state control config) {c : Nat} (hc : c < nc) {w : TViews R}
    (h : w.Ok P.d nc) {out : V2 R} (ho : nc ≤ out.d0) (ho1 : P.d + 1 ≤ out.d1) :
    (P.staticCell fabs state control config c (w, out)).Sat fun s => s.1.Ok P.d nc ∧
      s.2 = out.row c (out.e c + P.condRow fabs (P.law.cond (P.point (state.e c))) (state.e c) (control.e c)
        (config.e c)) := by
  obtain ⟨g, v, tg, q, T, r, e⟩ := w
  obtain ⟨g0, g1, g2, hv, t0, t1, f0, f1, hT, hr, he⟩ := h
  replace hv : v.length = nc := hv
  replace hT : T.length = nc := hT
  dsimp only at g0 g1 g2 t0 t1 f0 f1
  obtain ⟨a0, a1, b0, b1, x0, x1, x2⟩ := hw
  unfold Thermal.staticCell
  dsimp only
  rw [computeGradient_form fabs hd (by omega) x1 x2 (by omega) g1 g2 (by omega), Res.ok_bind]
  dsimp only
  rw [rd_at0 (by rw [List.length_set]; omega), Res.ok_bind, wr_eq (by rw [List.length_set]; omega),
    Res.ok_bind, scalarGrad_ok (g := V3.cell g c _) (by omega) t1 (by omega) (by omega)
      (by show c < g.d0; omega) g1 g2, Res.ok_bind,
    interpolate1_ok (by omega) hb.ge (by omega) (fun n hn => by omega), Res.ok_bind,
    flux_ok (grad := V2.row tg c _) (by omega) f1 (by show c < tg.d0; omega) t1 (by rw [List.length_set]; omega),
    Res.ok_bind, applyWeighting_ok (y := V2.row q c _) (by omega) b1 (by show c < q.d0; omega) f1.ge, Res.ok_bind]
  rw [fluxDivergence_row (g := V3.cell g c _) (flux := V2.row (V2.row q c _) c _) (by omega) (fun n hn => by omega)
    (by show c < q.d0; omega) f1 (by show c < g.d0; omega) g1 g2 (by rw [List.length_set, List.length_set]; omega),
    Res.ok_bind, Res.pure_eq, Res.sat_ok]
  refine ⟨⟨g0, g1, g2, ?_, t0, t1, f0, f1, ?_, hr, he⟩, ?_⟩
  · simp only [List.length_set]; exact hv
  · simp only [List.length_set]; exact hT
  dsimp only
  have hvol : at0 ((v.set c (fabs (detForm P.d (config.e c)))).set c
      (at0 (v.set c (fabs (detForm P.d (config.e c)))) c * P.cubWeight)) c = P.volForm fabs (config.e c) := by
    rw [at0_set (by rw [List.length_set]; omega), if_pos rfl, at0_set (by omega), if_pos rfl]; rfl
  rw [hvol, at0_set (by omega), if_pos rfl]
  congr 2
  unfold Thermal.condRow
  refine sum_congr rfl fun n hn => ?_
  congr 3
  refine sum_congr rfl fun k hk => ?_
  have hk' := mem_range.1 hk
  simp only [V2.row, V3.cell, if_true, hk', mem_range.1 hn, and_self]
  unfold Thermal.fluxForm
  rw [fourier_congr (g' := P.gradT (state.e c) (config.e c)) ?_ k]
  · simp only [Thermal.point, one_mul, add_zero]
  · intro j hj
    rw [if_pos hj]
    exact scalarField_congr (fun _ _ => rfl) fun n hn => if_pos ⟨hn, hj⟩

omit [Div R] hd hb in
theorem fluxNoTemp_ok {d c : Nat} {F : FluxLaw R} {flux grad : V2 R} (hc : c < flux.d0)
    (h1 : flux.d1 = d) (hg : c < grad.d0) (hg1 : grad.d1 = d) :
    F.fluxNoTemp d c flux grad = .ok (flux.row c fun i => if i < d then
      fourier d F.const (grad.e c) i else flux.e c i) := fluxLoop_ok hc h1 hg hg1

omit [Div R] hd hb in
theorem project1_row {npc ndof off c : Nat} {vol basis state : List R} {out : V2 R} {scale : R}
    (hc : c < out.d0) (hb : npc ≤ basis.length) (hv : c < vol.length) (hs : c < state.length)
    (h1 : ∀ n, n < npc → ndof * n + off < out.d1) :
    project1 npc ndof off c vol basis state out scale = .ok (out.row c (out.e c +
      ∑ n ∈ range npc, Pi.single (ndof * n + off) (scale * at0 basis n * at0 state c * at0 vol c))) := by
  have hp := project1_ok (scale := scale) hc hb hv hs h1 (out.e c)
  rwa [V2.row_self] at hp

theorem heatCell_ok (hw : WsOk P.d 1 nc state control config) (hr0 : nc ≤ rate.d0) (hr1 : P.d + 1 ≤ rate.d1)
    {c : Nat} (hc : c < nc) {w : TViews R}
    (h : w.Ok P.d nc) {out : V2 R} (ho : nc ≤ out.d0) (ho1 : P.d + 1 ≤ out.d1) :
    (P.heatCell fabs state rate control config c (w, out)).Sat fun s => s.1.Ok P.d nc ∧
      s.2 = out.row c (out.e c + P.heatRow fabs (state.e c) (rate.e c) (control.e c) (config.e c)) := by
  obtain ⟨g, v, tg, q, T, r, e⟩ := w
  obtain ⟨g0, g1, g2, hv, t0, t1, f0, f1, hT, hr, he⟩ := h
  replace hv : v.length = nc := hv
  replace hT : T.length = nc := hT
  replace hr : r.length = nc := hr
  replace he : e.length = nc := he
  dsimp only at g0 g1 g2 t0 t1 f0 f1
  obtain ⟨a0, a1, b0, b1, x0, x1, x2⟩ := hw
  unfold Thermal.heatCell
  dsimp only
  rw [computeGradient_form fabs hd (by omega) x1 x2 (by omega) g1 g2 (by omega), Res.ok_bind]
  dsimp only
  rw [rd_at0 (by rw [List.length_set]; omega), Res.ok_bind, wr_eq (by rw [List.length_set]; omega),
    Res.ok_bind, scalarGrad_ok (g := V3.cell g c _) (by omega) t1 (by omega) (by omega)
      (by show c < g.d0; omega) g1 g2, Res.ok_bind,
    fluxNoTemp_ok (grad := V2.row tg c _) (by omega) f1 (by show c < tg.d0; omega) t1,
    Res.ok_bind, applyWeighting_ok (y := V2.row q c _) (by omega) b1 (by show c < q.d0; omega) f1.ge, Res.ok_bind,
    fluxDivergence_row (g := V3.cell g c _) (flux := V2.row (V2.row q c _) c _) (by omega) (fun n hn => by omega)
    (by show c < q.d0; omega) f1 (by show c < g.d0; omega) g1 g2 (by rw [List.length_set, List.length_set]; omega),
    Res.ok_bind,
    interpolate1_ok (by omega) hb.ge (by omega) (fun n hn => by omega), Res.ok_bind,
    interpolate1_ok (by omega) hb.ge (by omega) (fun n hn => by omega), Res.ok_bind,
    content_ok (by omega) (by rw [List.length_set]; omega) (by rw [List.length_set]; omega), Res.ok_bind,
    applyWeighting1_ok (by omega) b1 (by rw [List.length_set]; omega), Res.ok_bind,
    project1_row (out := V2.row out c _) (by show c < out.d0; omega) hb.ge (by rw [List.length_set, List.length_set]; omega)
      (by rw [List.length_set, List.length_set]; omega) (fun n hn => by show 1 * n + 0 < out.d1; omega),
    Res.ok_bind, Res.pure_eq, Res.sat_ok]
  refine ⟨⟨g0, g1, g2, ?_, t0, t1, f0, f1, ?_, ?_, ?_⟩, ?_⟩
  · simp only [List.length_set]; exact hv
  · simp only [List.length_set]; exact hT
  · simp only [List.length_set]; exact hr
  · simp only [List.length_set]; exact he
  dsimp only
  rw [V2.row_row]
  have hvol : at0 ((v.set c (fabs (detForm P.d (config.e c)))).set c
      (at0 (v.set c (fabs (detForm P.d (config.e c)))) c * P.cubWeight)) c = P.volForm fabs (config.e c) := by
    rw [at0_set (by rw [List.length_set]; omega), if_pos rfl, at0_set (by omega), if_pos rfl]; rfl
  rw [hvol]
  congr 1
  simp only [V2.row, if_true]
  rw [add_assoc]
  congr 1
  unfold Thermal.heatRow
  congr 1
  · unfold Thermal.condRow
    refine sum_congr rfl fun n hn => ?_
    congr 3
    refine sum_congr rfl fun k hk => ?_
    have hk' := mem_range.1 hk
    simp only [V3.cell, if_true, hk', mem_range.1 hn, and_self]
    unfold Thermal.fluxForm
    rw [fourier_congr (g' := P.gradT (state.e c) (config.e c)) ?_ k]
    intro j hj
    rw [if_pos hj]
    exact scalarField_congr (fun _ _ => rfl) fun n hn => if_pos ⟨hn, hj⟩
  · unfold Thermal.storageRow
    refine sum_congr rfl fun n hn => ?_
    rw [at0_set (by rw [List.length_set]; omega), if_pos rfl, at0_set (by omega), if_pos rfl,
      at0_set (by omega), if_pos rfl, at0_set (by omega), if_pos rfl]
    simp only [Thermal.point, one_mul, add_zero]
    rfl

/-- **Closed form of the thermostatic `evaluate`**, for every schedule. -/
theorem static_ok {cells : List Nat} (hw : WsOk P.d 1 cells.length state control config)
    (hL : ∀ L ∈ P.bodyLoads, L.Ok P.d 1 cells) {sched : Nat → List Nat}
    (hs : ∀ k, IsSchedule (sched k) cells.length) {result : V2 R}
    (ho : cells.length ≤ result.d0) (ho1 : P.d + 1 ≤ result.d1) :
    P.static fabs sched cells state control config result = .ok (addRows result cells.length fun c =>
      P.staticRow fabs c (atN cells c) (state.e c) (control.e c) (config.e c)) := by
  obtain ⟨s, hsr, -, hs2⟩ := rowLoop (hs 0) (TViews.new_ok (R := R) P.d cells.length) (result := result) _
    (fun c w out hc hI h0 h1 => staticCell_ok fabs hd hb hw hc hI (by omega) (by omega))
  unfold Thermal.static
  rw [hsr, Res.ok_bind]
  obtain ⟨s1, s2⟩ := s
  dsimp only at hs2 ⊢
  obtain ⟨k', hk⟩ := bodyLoads_ok hs hw.z0 hw.z1 (-1) P.bodyLoads s2 1 hL (by rw [hs2]; exact ho)
    (by rw [hs2, Nat.mul_one]; exact ho1)
  rw [hk, Res.ok_bind, hs2]
  dsimp only
  rw [Res.pure_eq, addRows_addRows]
  rfl

/-- **Closed form of `evaluate` of the heat equation**, for every schedule. -/
theorem heat_ok (hw : WsOk P.d 1 nc state control config) (hr0 : nc ≤ rate.d0) (hr1 : P.d + 1 ≤ rate.d1)
    {order : List Nat} (hs : IsSchedule order nc) {result : V2 R}
    (ho : nc ≤ result.d0) (ho1 : P.d + 1 ≤ result.d1) :
    P.heat fabs order nc state rate control config result = .ok (addRows result nc fun c =>
      P.heatRow fabs (state.e c) (rate.e c) (control.e c) (config.e c)) := by
  obtain ⟨s, hsr, -, hs2⟩ := rowLoop hs (TViews.new_ok (R := R) P.d nc) (result := result) _
    (fun c w out hc hI h0 h1 => heatCell_ok fabs hd hb hw hr0 hr1 hc hI (by omega) (by omega))
  unfold Thermal.heat
  rw [hsr, Res.ok_bind]
  obtain ⟨s1, s2⟩ := s
  dsimp only at hs2 ⊢
  rw [hs2]
  rfl

end Plato.Thermal
