import Verif.PWork.Model
import Verif.Plast.Element
import Verif.J2.Props

/-!
# The criteria of plasticity: closed form of `evaluate`
-/

namespace Plato.PWork
open Finset Plato Plato.Mech Plato.J2 Plato.Plast

variable {R : Type} [CommRing R]

section Spec
variable (P : WorkCrit R) [Div R]

/-- Volume of a cell. -/
def WorkCrit.volOf (fabs : R → R) (X : Nat → Nat → R) : R := fabs (detForm P.mat.d X) * P.cubWeight

/-- Penalty of a cell. -/
def WorkCrit.penOf (Z : Nat → R) : R := P.pen (meanDensity (P.mat.d + 1) Z)

/-- Elastic strain of a cell. -/
def WorkCrit.elasticAt (U C : Nat → R) (X : Nat → Nat → R) : Nat → R := P.mat.elasticOf (P.mat.total U X) U C

/-- Stress of a cell. -/
def WorkCrit.stressOf (U C Z : Nat → R) (X : Nat → Nat → R) : Nat → R :=
  cauchyForm P.mat.d (P.penOf Z * P.bulk) (P.penOf Z * P.mat.shear) (P.elasticAt U C X)

/-- Change of the plastic or of the elastic strain of a cell. -/
def WorkCrit.misfitOf (D : CellData R) (t : Nat) : R :=
  if P.plastic then D.c (2 + t) - D.cp (2 + t) else P.elasticAt D.u D.c D.x t - P.elasticAt D.up D.cp D.x t

/-- Work of a cell. -/
def WorkCrit.work (fabs : R → R) (D : CellData R) : R :=
  (∑ t ∈ range (stressTerms P.mat.d), 1 / 2 * (P.stressOf D.u D.c D.z D.x t + P.stressOf D.up D.cp D.z D.x t) *
    P.misfitOf D t) * P.volOf fabs D.x

end Spec

/-! ## Functors -/

section Functors
variable {c : Nat}

theorem plasticMisfit_ok {d : Nat} (hd : d = 2 ∨ d = 3) {one two out : V2 R} (h1 : c < one.d0)
    (h11 : one.d1 = localDofs d) (h2 : c < two.d0) (h21 : two.d1 = localDofs d) (ho : c < out.d0)
    (ho1 : out.d1 = stressTerms d) :
    (plasticMisfit d c one two out).Sat (RowOf out c (stressTerms d) fun t => one.e c (2 + t) - two.e c (2 + t)) := by
  have hb : ∀ a ∈ misfitTable d, a.1 < stressTerms d ∧ a.2 < localDofs d := by
    rcases hd with rfl | rfl <;> decide
  unfold plasticMisfit
  conv => enter [1]; rw [← V2.row_self out c]
  rw [foldlM_row (fun a => a.1) (fun a _ => one.e c a.2 - two.e c a.2) (misfitTable d) _ (by
      intro a ha f
      have := hb a ha
      rw [vrd2_ok h1 (by omega), Res.ok_bind, vrd2_ok h2 (by omega), Res.ok_bind, vwr2_row ho (by omega)]), Res.sat_ok]
  refine ⟨rfl, rfl, fun t h => ?_, fun r hr => by simp [V2.row, hr]⟩
  rw [row_e]
  rcases hd with rfl | rfl
  · change t < 4 at h
    interval_cases t <;> simp [misfitTable]
  · change t < 6 at h
    interval_cases t <;> simp [misfitTable]

theorem elasticMisfit_ok {n : Nat} {one two out : V2 R} (h1 : c < one.d0) (h11 : n ≤ one.d1) (h2 : c < two.d0)
    (h21 : n ≤ two.d1) (ho : c < out.d0) (ho1 : n ≤ out.d1) :
    (elasticMisfit n c one two out).Sat (RowOf out c n fun t => one.e c t - two.e c t) := by
  unfold elasticMisfit
  conv => enter [1]; rw [← V2.row_self out c]
  rw [forRange_row (fun t _ => one.e c t - two.e c t), Res.sat_ok]
  · exact rowOf_row
  intro t f ht
  rw [vrd2_ok h1 (by omega), Res.ok_bind, vrd2_ok h2 (by omega), Res.ok_bind, vwr2_row ho (by omega)]

theorem average_ok [Div R] {n : Nat} {one two out : V2 R} (h1 : c < one.d0) (h11 : n ≤ one.d1) (h2 : c < two.d0)
    (h21 : n ≤ two.d1) (ho : c < out.d0) (ho1 : n ≤ out.d1) :
    (average n c one two out).Sat (RowOf out c n fun t => 1 / 2 * (one.e c t + two.e c t)) := by
  unfold average
  conv => enter [1]; rw [← V2.row_self out c]
  rw [forRange_row (fun t _ => 1 / 2 * (one.e c t + two.e c t)), Res.sat_ok]
  · exact rowOf_row
  intro t f ht
  rw [vrd2_ok h1 (by omega), Res.ok_bind, vrd2_ok h2 (by omega), Res.ok_bind, vwr2_row ho (by omega)]

theorem doubleDot_ok {n : Nat} {stress strn : V2 R} {vol out : List R} (h1 : c < stress.d0) (h11 : n ≤ stress.d1)
    (h2 : c < strn.d0) (h21 : n ≤ strn.d1) (hv : c < vol.length) (ho : c < out.length) :
    (doubleDot n c stress strn vol out).Sat
      (EntryOf out c ((∑ t ∈ range n, stress.e c t * strn.e c t) * at0 vol c)) := by
  unfold doubleDot
  refine Res.Sat.bind (wr_entry ho 0) fun o1 k1 => ?_
  refine Res.Sat.bind (forRange_inv (fun m o => EntryOf o1 c (∑ t ∈ range m, stress.e c t * strn.e c t) o) (Nat.zero_le n) ?_ ?_)
    fun o2 k2 => ?_
  · exact ⟨rfl, by rw [k1.val, range_zero, sum_empty], fun _ _ => rfl⟩
  · intro t o _ ht k
    have hc : c < o.length := by rw [k.length, k1.length]; exact ho
    rw [vrd2_ok h1 (by omega), Res.ok_bind, vrd2_ok h2 (by omega), Res.ok_bind, rd_at0 hc, Res.ok_bind]
    refine (wr_entry hc _).mono fun o' k' => k.trans (k'.congr ?_)
    rw [k.val, sum_range_succ]
  · have hc : c < o2.length := by rw [k2.length, k1.length]; exact ho
    rw [rd_at0 hv, Res.ok_bind, rd_at0 hc, Res.ok_bind]
    refine (wr_entry hc _).mono fun o' k' => (k1.trans k2).trans (k'.congr ?_)
    rw [k2.val]

end Functors

/-! ## The loop over the cells -/

/-- Extents of the views. -/
structure WViews.Ok (d nc : Nat) (w : WViews R) : Prop where
  vol : w.vol.length = nc
  g0 : w.grad.d0 = nc
  g1 : w.grad.d1 = d + 1
  g2 : w.grad.d2 = d
  pt : w.prevTotal.d0 = nc ∧ w.prevTotal.d1 = stressTerms d
  pe : w.prevElastic.d0 = nc ∧ w.prevElastic.d1 = stressTerms d
  pc : w.prevCauchy.d0 = nc ∧ w.prevCauchy.d1 = stressTerms d
  t : w.total.d0 = nc ∧ w.total.d1 = stressTerms d
  e : w.elastic.d0 = nc ∧ w.elastic.d1 = stressTerms d
  c : w.cauchy.d0 = nc ∧ w.cauchy.d1 = stressTerms d
  a : w.avg.d0 = nc ∧ w.avg.d1 = stressTerms d
  m : w.misfit.d0 = nc ∧ w.misfit.d1 = stressTerms d

theorem WViews.new_ok (d nc : Nat) : (WViews.new d nc : WViews R).Ok d nc :=
  ⟨List.length_replicate, rfl, rfl, rfl, ⟨rfl, rfl⟩, ⟨rfl, rfl⟩, ⟨rfl, rfl⟩, ⟨rfl, rfl⟩, ⟨rfl, rfl⟩, ⟨rfl, rfl⟩,
    ⟨rfl, rfl⟩, ⟨rfl, rfl⟩⟩

/-- Extents of the worksets. -/
structure WWs (P : J2 R) (nc : Nat) (w : LocalWs R) : Prop where
  cur : JWs P nc w.global w.locl w.control w.config
  old : JWs P nc w.prevGlobal w.prevLocl w.control w.config

section Cell
variable [Div R] {P : J2 R} (hd : P.d = 2 ∨ P.d = 3) (hB : P.basis.length = P.d + 1) {nc : Nat}
  {global locl control : V2 R} {config : V3 R} (hw : JWs P nc global locl control config)
include hd hw

theorem strain_row {c : Nat} (hc : c < nc) {tot : V2 R} (h0 : tot.d0 = nc) (h1 : tot.d1 = stressTerms P.d)
    (hz : ∀ t, tot.e c t = 0) {g : V3 R} (g0 : g.d0 = nc) (g1 : g.d1 = P.d + 1) (g2 : g.d2 = P.d)
    (hg : ∀ n k, n < P.d + 1 → k < P.d → g.e c n k = gradForm P.d (config.e c) n k) :
    (strain P.d P.ndof c tot global g).Sat
      (RowOf tot c (stressTerms P.d) (P.total (global.e c) (config.e c))) := by
  have hv := numVoigt_le hd
  rw [strain_le (s := tot) (u := global) (g := g) (c := c) hd (by omega) (by omega) (by rw [hw.g0]; exact hc) hw.g1
    (by omega) g1 g2 P.le_ndof, Res.sat_ok]
  refine ⟨rfl, rfl, fun t ht => ?_, fun r hr => by simp [V2.row, hr]⟩
  rw [row_e]
  unfold J2.total
  by_cases h1 : t < numVoigt P.d
  · rw [if_pos h1, if_pos h1, hz, ite_self, zero_add]
    exact voigtStrain_congr (.inr hd) (fun _ _ _ _ => rfl) hg
  · rw [if_neg h1, if_neg h1, hz]

include hB in
theorem elastic_row {c : Nat} (hc : c < nc) {tot el : V2 R} (h0 : tot.d0 = nc) (h1 : tot.d1 = stressTerms P.d)
    (he0 : el.d0 = nc) (he1 : el.d1 = stressTerms P.d)
    (ht : ∀ t, t < stressTerms P.d → tot.e c t = P.total (global.e c) (config.e c) t) :
    (elasticStrain P c global locl tot el).Sat (RowOf el c (stressTerms P.d)
      (P.elasticOf (P.total (global.e c) (config.e c)) (global.e c) (locl.e c))) := by
  rw [elasticStrain_ok hd hB (by omega) he1 (by omega) h1 (by rw [hw.p0]; exact hc) hw.p1 (by rw [hw.g0]; exact hc) hw.g1,
    Res.sat_ok]
  refine rowOf_row.congr fun t h => ?_
  unfold J2.elasticOf
  rw [ht t h]

end Cell

theorem cauchyForm_congr [Div R] {d : Nat} (hd : d = 2 ∨ d = 3) {bulk shear : R} {E E' : Nat → R}
    (h : ∀ t, t < stressTerms d → E t = E' t) {t : Nat} (ht : t < stressTerms d) :
    cauchyForm d bulk shear E t = cauchyForm d bulk shear E' t := by
  have h4 : 4 ≤ stressTerms d := by rcases hd with rfl | rfl <;> decide
  unfold cauchyForm
  rw [h t ht, h 0 (by omega), h 1 (by omega), h 3 (by omega)]

section Eval
variable [Div R] (fabs : R → R) {P : WorkCrit R} (hd : P.mat.d = 2 ∨ P.mat.d = 3)
  (hB : P.mat.basis.length = P.mat.d + 1) {nc : Nat} {w : LocalWs R} (hw : WWs P.mat nc w)
include hd hB hw

/-- What the first part of the body leaves in the row of a cell. -/
structure Kin (P : WorkCrit R) (fabs : R → R) (D : CellData R) (c : Nat) (v : WViews R) : Prop where
  vol : at0 v.vol c = P.volOf fabs D.x
  pe : ∀ t, t < stressTerms P.mat.d → v.prevElastic.e c t = P.elasticAt D.up D.cp D.x t
  e : ∀ t, t < stressTerms P.mat.d → v.elastic.e c t = P.elasticAt D.u D.c D.x t
  m : ∀ t, t < stressTerms P.mat.d → v.misfit.e c t = P.misfitOf D t

theorem kin_ok {c : Nat} (hc : c < nc) {v : WViews R} (h : v.Ok P.mat.d nc) (h1 : ∀ t, v.total.e c t = 0)
    (h2 : ∀ t, v.prevTotal.e c t = 0) :
    (P.kin fabs w c v).Sat fun v' => v'.Ok P.mat.d nc ∧ Kin P fabs (w.row c) c v' ∧
      (∀ r, r ≠ c → v'.total.e r = v.total.e r ∧ v'.prevTotal.e r = v.prevTotal.e r) := by
  have hG := computeGradient_form fabs (c := c) (g := v.grad) (cfg := w.config) (vol := v.vol) (.inr hd)
    (by rw [hw.cur.x0]; exact hc) hw.cur.x1 hw.cur.x2 (by rw [h.g0]; exact hc) h.g1 h.g2 (by rw [h.vol]; exact hc)
  have hvl : c < (v.vol.set c (fabs (detForm P.mat.d (w.config.e c)))).length := by rw [List.length_set, h.vol]; exact hc
  unfold WorkCrit.kin
  rw [hG, Res.ok_bind]
  dsimp only
  have hg : ∀ n k, n < P.mat.d + 1 → k < P.mat.d → (v.grad.cell c fun n k =>
      if n < P.mat.d + 1 ∧ k < P.mat.d then gradForm P.mat.d (w.config.e c) n k else v.grad.e c n k).e c n k =
        gradForm P.mat.d (w.config.e c) n k := fun n k hn hk => by
    simp only [V3.cell, if_true]; exact if_pos ⟨hn, hk⟩
  have g0 := h.g0
  have g1 := h.g1
  have g2 := h.g2
  generalize hgr : (v.grad.cell c fun n k => if n < P.mat.d + 1 ∧ k < P.mat.d then
    gradForm P.mat.d (w.config.e c) n k else v.grad.e c n k) = g at hg ⊢
  have e0 : g.d0 = nc := by rw [← hgr]; exact g0
  have e1 : g.d1 = P.mat.d + 1 := by rw [← hgr]; exact g1
  have e2 : g.d2 = P.mat.d := by rw [← hgr]; exact g2
  rw [rd_at0 hvl, Res.ok_bind, at0_set (by rw [h.vol]; exact hc), if_pos rfl]
  refine Res.Sat.bind (wr_entry hvl _) fun vol kv => ?_
  have hvol : vol.length = nc := by rw [kv.length, List.length_set, h.vol]
  refine Res.Sat.bind (P := fun m : V2 R => m.d0 = nc ∧ m.d1 = stressTerms P.mat.d ∧ (P.plastic = true →
    ∀ t, t < stressTerms P.mat.d → m.e c t = w.locl.e c (2 + t) - w.prevLocl.e c (2 + t))) ?_ fun m0 km0 => ?_
  · by_cases hp : P.plastic = true
    · rw [if_pos hp]
      refine (plasticMisfit_ok hd (by rw [hw.cur.p0]; exact hc) hw.cur.p1 (by rw [hw.old.p0]; exact hc) hw.old.p1
        (by rw [h.m.1]; exact hc) h.m.2).mono fun m hm => ⟨hm.d0.trans h.m.1, hm.d1.trans h.m.2, fun _ => hm.val⟩
    · rw [if_neg hp, Res.pure_eq, Res.sat_ok]
      exact ⟨h.m.1, h.m.2, fun h => absurd h hp⟩
  refine Res.Sat.bind (strain_row hd hw.old hc h.pt.1 h.pt.2 h2 e0 e1 e2 hg) fun pt kpt => ?_
  refine Res.Sat.bind (elastic_row hd hB hw.old hc (kpt.d0.trans h.pt.1) (kpt.d1.trans h.pt.2) h.pe.1 h.pe.2 kpt.val)
    fun pe kpe => ?_
  refine Res.Sat.bind (strain_row hd hw.cur hc h.t.1 h.t.2 h1 e0 e1 e2 hg) fun t kt => ?_
  refine Res.Sat.bind (elastic_row hd hB hw.cur hc (kt.d0.trans h.t.1) (kt.d1.trans h.t.2) h.e.1 h.e.2 kt.val)
    fun e ke => ?_
  have pe0 : pe.d0 = nc := kpe.d0.trans h.pe.1
  have pe1 : pe.d1 = stressTerms P.mat.d := kpe.d1.trans h.pe.2
  have ee0 : e.d0 = nc := ke.d0.trans h.e.1
  have ee1 : e.d1 = stressTerms P.mat.d := ke.d1.trans h.e.2
  refine Res.Sat.bind (P := fun m : V2 R => m.d0 = nc ∧ m.d1 = stressTerms P.mat.d ∧
    ∀ t, t < stressTerms P.mat.d → m.e c t = P.misfitOf (w.row c) t) ?_ fun m km => ?_
  · unfold WorkCrit.misfitOf
    by_cases hp : P.plastic = true
    · rw [if_pos hp, Res.pure_eq, Res.sat_ok]
      refine ⟨km0.1, km0.2.1, fun t ht => ?_⟩
      rw [if_pos hp]
      exact km0.2.2 hp t ht
    · rw [if_neg hp]
      refine (elasticMisfit_ok (by omega) (by omega) (by omega) (by omega) (by omega) (by omega)).mono fun m hm =>
        ⟨hm.d0.trans km0.1, hm.d1.trans km0.2.1, fun t ht => ?_⟩
      rw [if_neg hp, hm.val t ht, ke.val t ht, kpe.val t ht]
      rfl
  rw [Res.pure_eq, Res.sat_ok]
  refine ⟨⟨hvol, e0, e1, e2, ⟨kpt.d0.trans h.pt.1, kpt.d1.trans h.pt.2⟩, ⟨pe0, pe1⟩, h.pc,
    ⟨kt.d0.trans h.t.1, kt.d1.trans h.t.2⟩, ⟨ee0, ee1⟩, h.c, h.a, ⟨km.1, km.2.1⟩⟩,
    ⟨kv.val, kpe.val, ke.val, km.2.2⟩, fun r hr => ⟨kt.other r hr, kpt.other r hr⟩⟩

theorem cellBody_ok {c : Nat} (hc : c < nc) {v : WViews R} (h : v.Ok P.mat.d nc) (h1 : ∀ t, v.total.e c t = 0)
    (h2 : ∀ t, v.prevTotal.e c t = 0) {out : List R} (ho : out.length = nc) :
    (P.cellBody fabs w c (v, out)).Sat fun s => s.1.Ok P.mat.d nc ∧
      (∀ r, r ≠ c → s.1.total.e r = v.total.e r ∧ s.1.prevTotal.e r = v.prevTotal.e r) ∧
      EntryOf out c (P.work fabs (w.row c)) s.2 := by
  unfold WorkCrit.cellBody
  dsimp only
  refine Res.Sat.bind (kin_ok fabs hd hB hw hc h h1 h2) fun v' k => ?_
  obtain ⟨k1, k2, k3⟩ := k
  rw [cellDensity_ok (by rw [hw.cur.z0]; exact hc) hw.cur.z1, Res.ok_bind]
  refine Res.Sat.bind (cauchyStress_ok hd _ _ (by rw [k1.pe.1]; exact hc) k1.pe.2 (by rw [k1.pc.1]; exact hc) k1.pc.2)
    fun pc kpc => ?_
  refine Res.Sat.bind (cauchyStress_ok hd _ _ (by rw [k1.e.1]; exact hc) k1.e.2 (by rw [k1.c.1]; exact hc) k1.c.2)
    fun cc kcc => ?_
  have c0 := kcc.d0.trans k1.c.1
  have c1 := kcc.d1.trans k1.c.2
  have p0 := kpc.d0.trans k1.pc.1
  have p1 := kpc.d1.trans k1.pc.2
  have a0 := k1.a.1
  have a1 := k1.a.2
  refine Res.Sat.bind (average_ok (n := stressTerms P.mat.d) (c := c) (by omega) (by omega) (by omega) (by omega)
    (by omega) (by omega)) fun av ka => ?_
  have m0 := k1.m.1
  have m1 := k1.m.2
  have va0 := ka.d0.trans a0
  have va1 := ka.d1.trans a1
  have vl := k1.vol
  refine Res.Sat.bind (doubleDot_ok (n := stressTerms P.mat.d) (c := c) (by omega) (by omega) (by omega) (by omega)
    (by omega) (by omega)) fun o ko => ?_
  rw [Res.pure_eq, Res.sat_ok]
  refine ⟨⟨k1.vol, k1.g0, k1.g1, k1.g2, k1.pt, k1.pe, ⟨p0, p1⟩, k1.t, k1.e, ⟨c0, c1⟩, ⟨va0, va1⟩, k1.m⟩, k3,
    ko.congr ?_⟩
  unfold WorkCrit.work
  rw [k2.vol]
  congr 1
  refine sum_congr rfl fun t ht => ?_
  have ht := mem_range.1 ht
  rw [ka.val t ht, kcc.val t ht, kpc.val t ht, k2.m t ht, cauchyForm_congr hd k2.e ht, cauchyForm_congr hd k2.pe ht]
  rfl

/-- **`evaluate` in closed form**, for every order of the cells and every previous content of the result. -/
theorem evaluate_ok {order : List Nat} (hs : IsSchedule order nc) {out : List R} (ho : out.length = nc) :
    (P.evaluate fabs order nc w out).Sat fun r => r.length = nc ∧ ∀ c, c < nc → at0 r c = P.work fabs (w.row c) := by
  unfold WorkCrit.evaluate
  refine Res.Sat.bind (parFor_sched hs (fun D (s : WViews R × List R) => s.1.Ok P.mat.d nc ∧ s.2.length = nc ∧
    (∀ r, r ∉ D → ∀ t, s.1.total.e r t = 0 ∧ s.1.prevTotal.e r t = 0) ∧
    ∀ c ∈ D, at0 s.2 c = P.work fabs (w.row c))
    ⟨WViews.new_ok _ _, ho, fun _ _ _ => ⟨rfl, rfl⟩, by simp⟩ ?_) ?_
  · rintro D c ⟨v, o⟩ hc hD - ⟨h1, h2, h3, h4⟩
    refine (cellBody_ok fabs hd hB hw hc h1 (fun t => (h3 c hD t).1) (fun t => (h3 c hD t).2) h2).mono ?_
    rintro ⟨v', o'⟩ ⟨k1, k2, k3⟩
    dsimp only at k1 k2 k3 h4
    refine ⟨k1, k3.length.trans h2, ?_, ?_⟩
    · intro r hr t
      have : r ≠ c ∧ r ∉ D := by simpa using hr
      rw [(k2 r this.1).1, (k2 r this.1).2]
      exact h3 r this.2 t
    · intro r hr
      by_cases hrc : r = c
      · subst hrc; exact k3.val
      · have : r ∈ D := by simpa [hrc] using hr
        rw [k3.other r hrc]
        exact h4 r this
  · rintro ⟨v, o⟩ ⟨-, h2, -, h4⟩
    dsimp only
    rw [Res.pure_eq, Res.sat_ok]
    exact ⟨h2, fun c hc => h4 c (by simpa using hc)⟩

end Eval
end Plato.PWork
