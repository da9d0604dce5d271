import Verif.Plast.ProjectionModel
import Verif.Plast.Element
import Verif.Thermal.Form
import Verif.Thermal.Track
import Verif.Blas.Vector
import Verif.Crs.RowSum

/-!
# Projection of the pressure gradient: closed forms
-/

namespace Plato.Plast
open Finset Plato Plato.Mech Plato.Thermal Plato.Dyn

/-! ## Specification -/

section Spec
variable {R : Type} [CommRing R] [Div R] (P : Proj R)

/-- Weight of a cell: volume times penalty. -/
def Proj.mass (fabs : R → R) (Z : Nat → R) (X : Nat → Nat → R) : R :=
  P.pen (meanDensity (P.d + 1) Z) * (fabs (detForm P.d X) * P.cubWeight)

/-- Scaled gradient of the pressure in a cell. -/
def Proj.slope (p : Nat → R) (X : Nat → Nat → R) (k : Nat) : R := P.kappa * scalarField P.d p (gradForm P.d X) k

/-- Component `i` of a field at the integration point. -/
def Proj.at (U : Nat → R) (i : Nat) : R := interp (P.d + 1) (at0 P.basis) fun n => U (P.d * n + 0 + i)

/-- Row of the residual. -/
def Proj.row (fabs : R → R) (U p Z : Nat → R) (X : Nat → Nat → R) : Nat → R :=
  ∑ n ∈ range (P.d + 1), ∑ i ∈ range P.d, Pi.single (P.d * n + i + 0)
      (1 * at0 P.basis n * (P.at U i * P.pen (meanDensity (P.d + 1) Z)) * (fabs (detForm P.d X) * P.cubWeight)) +
    ∑ n ∈ range (P.d + 1), ∑ i ∈ range P.d, Pi.single (P.d * n + i + 0)
      (-1 * at0 P.basis n * (P.slope p X i * P.pen (meanDensity (P.d + 1) Z)) * (fabs (detForm P.d X) * P.cubWeight))

end Spec

/-! ## The residual -/

section Eval
variable {R : Type} [CommRing R] [Div R]

omit [Div R] in
theorem pressureGradient_ok {d c : Nat} (kappa : R) {press out : V2 R} {g : V3 R} (hc : c < out.d0) (h1 : d ≤ out.d1)
    (hs : c < press.d0) (hs1 : d + 1 ≤ press.d1) (hg : c < g.d0) (hg1 : g.d1 = d + 1) (hg2 : g.d2 = d)
    {G : Nat → Nat → R} (hG : ∀ n k, n < d + 1 → k < d → g.e c n k = G n k) :
    (pressureGradient kappa d c out press g).Sat
      (RowOf out c d fun k => kappa * scalarField d (press.e c) G k) := by
  unfold pressureGradient
  conv => enter [1]; rw [← V2.row_self out c]
  rw [forRange_row (fun k _ => ∑ n ∈ range (d + 1), kappa * press.e c n * g.e c n k), Res.sat_ok]
  · refine rowOf_row.congr fun k hk => ?_
    unfold scalarField
    rw [mul_sum]
    exact sum_congr rfl fun n hn => by rw [hG n k (mem_range.1 hn) hk, mul_assoc]
  intro k f hk
  rw [vwr2_row hc (by omega), Res.ok_bind,
    forRange_addrow (fun n => Pi.single k (kappa * press.e c n * g.e c n k)) _ (by
      intro n f hn
      rw [vrd2_ok hs (by omega), Res.ok_bind, vrd3_ok hg (by omega) (by omega), Res.ok_bind]
      exact accum2_row hc (by omega))]
  congr 2
  funext r
  by_cases h : r = k
  · subst h; simp
  · simp [h]

/-- The views of the residual have the right sizes. -/
structure QViews.Ok (w : QViews R) (d nc : Nat) : Prop where
  vol : w.vol.length = nc
  g0 : w.grad.d0 = nc
  g1 : w.grad.d1 = d + 1
  g2 : w.grad.d2 = d
  p0 : w.pgrad.d0 = nc
  p1 : w.pgrad.d1 = d
  q0 : w.proj.d0 = nc
  q1 : w.proj.d1 = d

omit [CommRing R] [Div R] in
theorem RowOf.out [CommRing R] {y y' : V2 R} {c n : Nat} {f : Nat → R} (h : RowOf y c n f y') {a b : Nat} (h0 : y.d0 = a) (h1 : y.d1 = b) :
    y'.d0 = a ∧ y'.d1 = b := ⟨h.d0.trans h0, h.d1.trans h1⟩

theorem interpolateN_sat {npc ndof off ndofs c : Nat} {basis : List R} {state out : V2 R} (hc : c < out.d0)
    (h1 : ndofs ≤ out.d1) (hb : npc ≤ basis.length) (hs : c < state.d0)
    (hs1 : ∀ n i, n < npc → i < ndofs → ndof * n + off + i < state.d1) :
    (interpolateN npc ndof off ndofs c basis state out).Sat
      (RowOf out c ndofs fun i => interp npc (at0 basis) fun n => state.e c (ndof * n + off + i)) := by
  rw [interpolateN_ok hc h1 hb hs hs1, Res.sat_ok]
  exact rowOf_row

theorem applyWeighting_sat {npc terms c : Nat} {pen : R → R} {y z : V2 R} (hz : c < z.d0)
    (hz1 : npc ≤ z.d1) (hy : c < y.d0) (hy1 : terms ≤ y.d1) {f : Nat → R} (hf : ∀ t, t < terms → y.e c t = f t) :
    (applyWeighting npc terms pen c y z).Sat (RowOf y c terms fun t => f t * pen (meanDensity npc (z.e c))) := by
  rw [applyWeighting_ok hz hz1 hy hy1, Res.sat_ok]
  exact rowOf_row.congr fun t ht => by rw [hf t ht]

theorem Proj.cellBody_ok {P : Proj R} (fabs : R → R) (hd : P.d = 1 ∨ P.d = 2 ∨ P.d = 3) (hB : P.basis.length = P.d + 1) {nc : Nat}
    {nodal press control : V2 R} {config : V3 R} (hn0 : nodal.d0 = nc) (hn1 : nodal.d1 = (P.d + 1) * P.d)
    (hp0 : press.d0 = nc) (hp1 : press.d1 = P.d + 1) (hz0 : control.d0 = nc) (hz1 : control.d1 = P.d + 1)
    (hx0 : config.d0 = nc) (hx1 : config.d1 = P.d + 1) (hx2 : config.d2 = P.d) {c : Nat} (hc : c < nc)
    {w : QViews R} (hw : w.Ok P.d nc) {out : V2 R} (ho0 : c < out.d0) (ho1 : (P.d + 1) * P.d ≤ out.d1) :
    (P.cellBody fabs nodal press control config c (w, out)).Sat fun s => s.1.Ok P.d nc ∧
      s.2 = out.row c (out.e c + P.row fabs (nodal.e c) (press.e c) (control.e c) (config.e c)) := by
  unfold Proj.cellBody
  dsimp only
  rw [computeGradient_form fabs hd (by omega) hx1 hx2 (by rw [hw.g0]; exact hc) hw.g1 hw.g2 (by rw [hw.vol]; exact hc),
    Res.ok_bind]
  dsimp only
  have hl : c < w.vol.length := by rw [hw.vol]; exact hc
  rw [rd_at0 (by rw [List.length_set]; exact hl), Res.ok_bind, wr_eq (by rw [List.length_set]; exact hl), Res.ok_bind,
    List.set_set, at0_set hl, if_pos rfl]
  generalize hV : w.vol.set c (fabs (detForm P.d (config.e c)) * P.cubWeight) = vol
  have hvl : vol.length = nc := by rw [← hV, List.length_set, hw.vol]
  have hvc : at0 vol c = fabs (detForm P.d (config.e c)) * P.cubWeight := by rw [← hV, at0_set hl, if_pos rfl]
  generalize hgr : (w.grad.cell c fun n k => if n < P.d + 1 ∧ k < P.d then gradForm P.d (config.e c) n k else w.grad.e c n k) = g
  have g0 : g.d0 = nc := by rw [← hgr]; exact hw.g0
  have g1 : g.d1 = P.d + 1 := by rw [← hgr]; exact hw.g1
  have g2 : g.d2 = P.d := by rw [← hgr]; exact hw.g2
  refine Res.Sat.bind (pressureGradient_ok P.kappa (G := gradForm P.d (config.e c)) (by rw [hw.p0]; exact hc) hw.p1.ge
    (by omega) hp1.ge (by rw [g0]; exact hc) g1 g2 (by
      intro n k hn hk
      rw [← hgr]
      simp only [V3.cell, if_true]
      rw [if_pos ⟨hn, hk⟩])) ?_
  intro pg h1
  obtain ⟨a0, a1⟩ := h1.out hw.p0 hw.p1
  refine Res.Sat.bind (interpolateN_sat (basis := P.basis) (npc := P.d + 1) (ndof := P.d) (off := 0) (by rw [hw.q0]; exact hc) hw.q1.ge hB.ge
    (show c < nodal.d0 by omega) (fun n i hn hi => by
      have := dof_lt (ndof := P.d) hn hi
      rw [hn1, Nat.mul_comm P.d n]; omega)) ?_
  intro pj h2
  obtain ⟨b0, b1⟩ := h2.out hw.q0 hw.q1
  refine Res.Sat.bind (applyWeighting_sat (npc := P.d + 1) (pen := P.pen) (show c < control.d0 by omega) (by omega) (by rw [a0]; exact hc) a1.ge h1.val) ?_
  intro pg' h3
  obtain ⟨a0', a1'⟩ := h3.out a0 a1
  refine Res.Sat.bind (applyWeighting_sat (npc := P.d + 1) (pen := P.pen) (show c < control.d0 by omega) (by omega) (by rw [b0]; exact hc) b1.ge h2.val) ?_
  intro pj' h4
  obtain ⟨b0', b1'⟩ := h4.out b0 b1
  have hlt : ∀ n i, n < P.d + 1 → i < P.d → P.d * n + i + 0 < out.d1 := fun n i hn hi => by
    have := dof_lt (ndof := P.d) hn hi
    rw [Nat.mul_comm P.d n]; omega
  conv => enter [1]; rw [← V2.row_self out c]
  rw [projectN_ok ho0 hB.ge (by omega) (by rw [b0']; exact hc)
    (fun n i hn hi => hlt n i hn (by rw [← b1']; exact hi)), Res.ok_bind,
    projectN_ok ho0 hB.ge (by omega) (by rw [a0']; exact hc)
    (fun n i hn hi => hlt n i hn (by rw [← a1']; exact hi)), Res.ok_bind, Res.pure_eq, Res.sat_ok]
  refine ⟨⟨hvl, g0, g1, g2, a0', a1', b0', b1'⟩, ?_⟩
  dsimp only
  rw [add_assoc, a1', b1', hvc]
  congr 2
  unfold Proj.row
  congr 1
  · refine sum_congr rfl fun n _ => sum_congr rfl fun i hi => ?_
    rw [h4.val i (mem_range.1 hi)]
    rfl
  · refine sum_congr rfl fun n _ => sum_congr rfl fun i hi => ?_
    rw [h3.val i (mem_range.1 hi)]
    rfl

/-- **Closed form of the residual**, for every schedule. -/
theorem Proj.evaluate_ok {P : Proj R} (fabs : R → R) (hd : P.d = 1 ∨ P.d = 2 ∨ P.d = 3) (hB : P.basis.length = P.d + 1) {nc : Nat}
    {nodal press control : V2 R} {config : V3 R} (hn0 : nodal.d0 = nc) (hn1 : nodal.d1 = (P.d + 1) * P.d)
    (hp0 : press.d0 = nc) (hp1 : press.d1 = P.d + 1) (hz0 : control.d0 = nc) (hz1 : control.d1 = P.d + 1)
    (hx0 : config.d0 = nc) (hx1 : config.d1 = P.d + 1) (hx2 : config.d2 = P.d) {order : List Nat}
    (hs : IsSchedule order nc) {result : V2 R} (hr0 : nc ≤ result.d0) (hr1 : (P.d + 1) * P.d ≤ result.d1) :
    P.evaluate fabs order nc nodal press control config result = .ok (addRows result nc fun c =>
      P.row fabs (nodal.e c) (press.e c) (control.e c) (config.e c)) := by
  obtain ⟨⟨w, out⟩, hwr, hI, ho⟩ := rowLoop hs (I := fun (w : QViews R) => w.Ok P.d nc)
    (w := QViews.new P.d nc) ⟨by simp [QViews.new], rfl, rfl, rfl, rfl, rfl, rfl, rfl⟩ (result := result)
    (fun c => P.row fabs (nodal.e c) (press.e c) (control.e c) (config.e c))
    (body := P.cellBody fabs nodal press control config) (by
      intro c w out hc hw h0 h1
      exact Proj.cellBody_ok fabs hd hB hn0 hn1 hp0 hp1 hz0 hz1 hx0 hx1 hx2 hc hw (by omega) (by omega))
  unfold Proj.evaluate
  rw [hwr, Res.ok_bind]
  dsimp only at ho ⊢
  rw [ho, Res.pure_eq]

end Eval

end Plato.Plast
