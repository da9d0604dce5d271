import Verif.Plast.Element

/-!
# The loop over the cells of the residual of plasticity
-/

namespace Plato.Plast
open Finset Plato Plato.Mech Plato.Thermal Plato.J2 Plato.Dyn
open Plato.Tm (fluxRow heatRow)

variable {R : Type} [CommRing R]

/-- Extents of a matrix. -/
def Ext (y : V2 R) (n m : Nat) : Prop := y.d0 = n ∧ y.d1 = m

omit [CommRing R] in
theorem RowOf.ext {y y' : V2 R} {c n : Nat} {f : Nat → R} (h : RowOf y c n f y') {a b : Nat} (e : Ext y a b) :
    Ext y' a b := ⟨h.d0.trans e.1, h.d1.trans e.2⟩

/-- Extents of the views. -/
structure PViews.Ok (d nc : Nat) (w : PViews R) : Prop where
  vol : w.vol.length = nc
  press : w.press.length = nc
  volStrain : w.volStrain.length = nc
  div : w.div.length = nc
  temp : w.temp.length = nc
  thermVol : w.thermVol.length = nc
  g0 : w.grad.d0 = nc
  g1 : w.grad.d1 = d + 1
  g2 : w.grad.d2 = d
  total : Ext w.total nc (stressTerms d)
  elastic : Ext w.elastic nc (stressTerms d)
  pgrad : Ext w.pgrad nc d
  proj : Ext w.proj nc d
  dev : Ext w.dev nc (stressTerms d)
  stab : Ext w.stab nc d
  tgrad : Ext w.tgrad nc d
  flux : Ext w.flux nc d
  cauchy : Ext w.cauchy nc (stressTerms d)
  accum : w.accum.length = nc
  mult : w.mult.length = nc
  plastic : Ext w.plastic nc (stressTerms d)
  back : Ext w.back nc (stressTerms d)

theorem PViews.new_ok (d nc : Nat) : (PViews.new d nc : PViews R).Ok d nc :=
  ⟨List.length_replicate, List.length_replicate, List.length_replicate, List.length_replicate, List.length_replicate,
    List.length_replicate, rfl, rfl, rfl, ⟨rfl, rfl⟩, ⟨rfl, rfl⟩, ⟨rfl, rfl⟩, ⟨rfl, rfl⟩, ⟨rfl, rfl⟩, ⟨rfl, rfl⟩,
    ⟨rfl, rfl⟩, ⟨rfl, rfl⟩, ⟨rfl, rfl⟩, List.length_replicate, List.length_replicate, ⟨rfl, rfl⟩, ⟨rfl, rfl⟩⟩

/-- Extents of the worksets. -/
structure GWs (P : Plast R) (nc : Nat) (global locl node control : V2 R) (config : V3 R) : Prop where
  g0 : global.d0 = nc
  g1 : (P.d + 1) * P.ndof ≤ global.d1
  l0 : locl.d0 = nc
  l1 : locl.d1 = localDofs P.d
  n0 : node.d0 = nc
  n1 : (P.d + 1) * P.d ≤ node.d1
  z0 : control.d0 = nc
  z1 : P.d + 1 ≤ control.d1
  x0 : config.d0 = nc
  x1 : config.d1 = P.d + 1
  x2 : config.d2 = P.d

theorem Plast.le_ndof (P : Plast R) : P.d ≤ P.ndof := P.mat.le_ndof

theorem Plast.poff_lt (P : Plast R) : P.poff < P.ndof := by
  unfold Plast.poff Plast.ndof J2.ndof Plast.d; split <;> omega

theorem Plast.lt_ndof (P : Plast R) : P.d < P.ndof := by
  unfold Plast.ndof J2.ndof Plast.d; split <;> omega

variable [Div R] (fabs pow23 : R → R)

/-- Geometry and strains of a cell in the views. -/
structure Kin (P : Plast R) (U C : Nat → R) (X : Nat → Nat → R) (c : Nat) (w : PViews R) : Prop where
  grad : ∀ n k, n < P.d + 1 → k < P.d → w.grad.e c n k = gradForm P.d X n k
  vol : at0 w.vol c = P.volOf fabs X
  total : ∀ t, t < stressTerms P.d → w.total.e c t = P.mat.total U X t
  elastic : ∀ t, t < stressTerms P.d → w.elastic.e c t = P.elasticAt U C X t
  tgrad : P.mat.thermal = true → ∀ k, k < P.d → w.tgrad.e c k = P.gradOf P.d U X k
  thermVol : P.mat.thermal = true → at0 w.thermVol c = P.thermVolOf U

/-- Pressure, stress, volume equation, stabilisation and heat flux of a cell in the views. -/
structure Kinet (P : Plast R) (U C N Z : Nat → R) (X : Nat → Nat → R) (c : Nat) (w : PViews R) : Prop where
  press : at0 w.press c = P.pressOf U
  gap : at0 w.volStrain c = P.gapOf U Z X
  dev : ∀ t, t < stressTerms P.d → w.dev.e c t = P.devOf U C Z X t
  stab : ∀ k, k < P.d → w.stab.e c k = P.stabOf fabs pow23 U N Z X k
  flux : P.mat.thermal = true → ∀ k, k < P.d → w.flux.e c k = P.fluxOf U Z X k

/-- Output of a cell. -/
structure Out (P : Plast R) (U C Z : Nat → R) (X : Nat → Nat → R) (c : Nat) (w : PViews R) : Prop where
  dev : ∀ t, t < stressTerms P.d → w.dev.e c t = P.devOf U C Z X t
  elastic : ∀ t, t < stressTerms P.d → w.elastic.e c t = P.elasticAt U C X t
  flux : P.mat.thermal = true → ∀ k, k < P.d → w.flux.e c k = P.fluxOf U Z X k
  cauchy : ∀ t, t < stressTerms P.d → w.cauchy.e c t =
    cauchyForm P.d (P.penOf Z * P.bulk) (P.penOf Z * P.mat.shear) (P.elasticAt U C X) t
  accum : at0 w.accum c = C 0
  mult : at0 w.mult c = C 1
  plastic : ∀ t, t < stressTerms P.d → w.plastic.e c t = C (2 + t)
  back : ∀ t, t < stressTerms P.d → w.back.e c t = C (2 + stressTerms P.d + t)

omit [CommRing R] [Div R] in
/-- The views that the loop needs or hands to the output agree at a cell. -/
structure Same [Zero R] (r : Nat) (w w' : PViews R) : Prop where
  total : w'.total.e r = w.total.e r
  dev : w'.dev.e r = w.dev.e r
  elastic : w'.elastic.e r = w.elastic.e r
  flux : w'.flux.e r = w.flux.e r
  cauchy : w'.cauchy.e r = w.cauchy.e r
  accum : at0 w'.accum r = at0 w.accum r
  mult : at0 w'.mult r = at0 w.mult r
  plastic : w'.plastic.e r = w.plastic.e r
  back : w'.back.e r = w.back.e r

omit [CommRing R] [Div R] in
theorem Same.trans [Zero R] {r : Nat} {w w' w'' : PViews R} (a : Same r w w') (b : Same r w' w'') : Same r w w'' :=
  ⟨b.total.trans a.total, b.dev.trans a.dev, b.elastic.trans a.elastic, b.flux.trans a.flux, b.cauchy.trans a.cauchy,
    b.accum.trans a.accum, b.mult.trans a.mult, b.plastic.trans a.plastic, b.back.trans a.back⟩

theorem Out.same {P : Plast R} {U C Z : Nat → R} {X : Nat → Nat → R} {r : Nat} {w w' : PViews R}
    (h : Out P U C Z X r w) (s : Same r w w') : Out P U C Z X r w' :=
  ⟨by rw [s.dev]; exact h.dev, by rw [s.elastic]; exact h.elastic, by rw [s.flux]; exact h.flux,
    by rw [s.cauchy]; exact h.cauchy, by rw [s.accum]; exact h.accum, by rw [s.mult]; exact h.mult,
    by rw [s.plastic]; exact h.plastic, by rw [s.back]; exact h.back⟩

omit [Div R] in
theorem cauchyForm_congr [Div R] {d : Nat} (hd : d = 2 ∨ d = 3) {b m : R} {E E' : Nat → R}
    (h : ∀ t, t < stressTerms d → E t = E' t) {t : Nat} (ht : t < stressTerms d) :
    cauchyForm d b m E t = cauchyForm d b m E' t := by
  have h4 : 3 < stressTerms d := by rcases hd with rfl | rfl <;> decide
  unfold cauchyForm
  rw [h t ht, h 0 (by omega), h 1 (by omega), h 3 (by omega)]

section Cell
variable {P : Plast R} (hd : P.d = 2 ∨ P.d = 3) (hB : P.mat.basis.length = P.d + 1) {nc : Nat}
  {global locl node control : V2 R} {config : V3 R} (hw : GWs P nc global locl node control config)
include hd hB hw

theorem kin_ok {c : Nat} (hc : c < nc) {w : PViews R} (h : w.Ok P.d nc) (h0 : ∀ t, w.total.e c t = 0) :
    (P.kin fabs global locl config c w).Sat fun w' => w'.Ok P.d nc ∧
      Kin fabs P (global.e c) (locl.e c) (config.e c) c w' ∧ ∀ r, r ≠ c → Same r w w' := by
  have hd' : P.d = 1 ∨ P.d = 2 ∨ P.d = 3 := .inr hd
  have hv := h.vol
  have hg0 := h.g0
  have hx0 := hw.x0
  have hu0 := hw.g0
  have hl0 := hw.l0
  have htl := h.temp
  have htv := h.thermVol
  have hnd := P.lt_ndof
  unfold Plast.kin
  rw [computeGradient_form fabs hd' (by omega) hw.x1 hw.x2 (by omega) h.g1 h.g2 (by omega), Res.ok_bind]
  dsimp only
  generalize hg : w.grad.cell c _ = g
  have hG : ∀ n k, n < P.d + 1 → k < P.d → g.e c n k = gradForm P.d (config.e c) n k := by
    intro n k hn hk
    rw [← hg]
    simp only [V3.cell, if_true]
    rw [if_pos ⟨hn, hk⟩]
  have g0 : g.d0 = nc := by rw [← hg]; exact h.g0
  have g1 : g.d1 = P.d + 1 := by rw [← hg]; exact h.g1
  have g2 : g.d2 = P.d := by rw [← hg]; exact h.g2
  clear hg
  rw [rd_at0 (by rw [List.length_set]; omega), Res.ok_bind]
  refine Res.Sat.bind (wr_entry (by rw [List.length_set]; omega) _) fun v hv' => ?_
  replace hv' := ((entryOf_set (a := fabs (detForm P.d (config.e c))) (by omega)).trans hv')
  rw [at0_set (by omega), if_pos rfl] at hv'
  refine Res.Sat.bind (P := fun s => s.1.length = nc ∧ Ext s.2.1 nc P.d ∧ s.2.2.length = nc ∧
    (P.mat.thermal = true → (∀ k, k < P.d → s.2.1.e c k = P.gradOf P.d (global.e c) (config.e c) k) ∧
      at0 s.2.2 c = P.thermVolOf (global.e c))) ?_ ?_
  · by_cases hT : P.mat.thermal = true
    · rw [if_pos hT]
      have hdof : ∀ n, n < P.d + 1 → P.ndof * n + P.d < global.d1 := by
        intro n hn
        have := dof_lt (d := P.d) (ndof := P.ndof) (i := P.d) hn hnd
        rw [Nat.mul_comm]
        have := hw.g1
        omega
      rw [interpolate1_ok (by omega) hB.ge (by omega) hdof, Res.ok_bind]
      refine Res.Sat.bind (scalarGradAt_ok (by rw [h.tgrad.1]; exact hc) h.tgrad.2.ge (by omega) hw.g1 hnd
        (by omega) g1 g2 hG) fun tg htg => ?_
      rw [rd_at0 (by rw [List.length_set]; omega), Res.ok_bind]
      refine Res.Sat.bind (wr_entry (by omega) _) fun tv ht => ?_
      rw [at0_set (by omega), if_pos rfl] at ht
      rw [Res.pure_eq, Res.sat_ok]
      refine ⟨by rw [List.length_set]; exact htl, htg.ext h.tgrad, ht.length.trans htv, fun _ => ⟨htg.val, ?_⟩⟩
      rw [ht.val]
      unfold Plast.thermVolOf
      rw [if_pos hT]
      rfl
    · rw [if_neg hT, Res.pure_eq, Res.sat_ok]
      exact ⟨htl, h.tgrad, htv, fun h => absurd h hT⟩
  rintro ⟨temp, tg, tv⟩ ⟨t1, t2, t3, t4⟩
  dsimp only at t1 t2 t3 t4 ⊢
  have hvt := numVoigt_le hd
  rw [strain_le (s := w.total) (u := global) (g := g) (c := c) hd (by rw [h.total.1]; exact hc)
    (by rw [h.total.2]; exact hvt) (by omega) hw.g1 (by omega) g1 g2 P.le_ndof, Res.ok_bind]
  have hE : ∀ t, t < stressTerms P.d → (if t < numVoigt P.d then (if t < P.d then 0 else w.total.e c t) +
      voigtStrain P.d (nodal P.ndof global c) (g.e c) t else w.total.e c t) =
      P.mat.total (global.e c) (config.e c) t := by
    intro t ht
    unfold J2.total
    by_cases h1 : t < numVoigt P.d
    · rw [if_pos h1, if_pos h1, h0, ite_self, zero_add]
      exact voigtStrain_congr hd' (fun _ _ _ _ => rfl) hG
    · rw [if_neg h1, if_neg h1, h0]
  generalize ht : w.total.row c _ = tot
  have ht0 : tot.d0 = nc := by rw [← ht]; exact h.total.1
  have ht1 : tot.d1 = stressTerms P.d := by rw [← ht]; exact h.total.2
  have htE : ∀ t, t < stressTerms P.d → tot.e c t = P.mat.total (global.e c) (config.e c) t := by
    intro t h; rw [← ht, row_e]; exact hE t h
  have hto : ∀ r, r ≠ c → tot.e r = w.total.e r := by intro r hr; rw [← ht]; simp [V2.row, hr]
  clear ht hE
  rw [elasticStrain_ok (total := tot) hd hB (by rw [h.elastic.1]; exact hc) h.elastic.2
      (by omega) ht1 (by omega) hw.l1 (by omega) hw.g1, Res.ok_bind, Res.pure_eq, Res.sat_ok]
  refine ⟨⟨hv'.length.trans hv, h.press, h.volStrain, h.div, t1, t3, g0, g1, g2, ⟨ht0, ht1⟩, h.elastic, h.pgrad, h.proj,
    h.dev, h.stab, t2, h.flux, h.cauchy, h.accum, h.mult, h.plastic, h.back⟩, ⟨hG, hv'.val, htE, ?_,
    fun h => (t4 h).1, fun h => (t4 h).2⟩, fun r hr => ⟨hto r hr, rfl, ?_, rfl, rfl, rfl, rfl, rfl, rfl⟩⟩
  · intro t ht
    dsimp only
    rw [row_e, if_pos ht]
    unfold Plast.elasticAt J2.elasticOf
    rw [htE t ht]
  · simp [V2.row, hr]

theorem kinet_ok {c : Nat} (hc : c < nc) {w : PViews R} (h : w.Ok P.d nc)
    (hk : Kin fabs P (global.e c) (locl.e c) (config.e c) c w) :
    (P.kinet pow23 global node control c w).Sat fun w' => w'.Ok P.d nc ∧
      Kin fabs P (global.e c) (locl.e c) (config.e c) c w' ∧
      Kinet fabs pow23 P (global.e c) (locl.e c) (node.e c) (control.e c) (config.e c) c w' ∧
      ∀ r, r ≠ c → Same r w w' := by
  have hg0 := h.g0
  have hu0 := hw.g0
  have hn0 := hw.n0
  have hz0 := hw.z0
  have hv := h.vol
  have hp := h.press
  have hpo := P.poff_lt
  have hdof : ∀ n, n < P.d + 1 → P.ndof * n + P.poff < global.d1 := by
    intro n hn
    have := dof_lt (d := P.d) (ndof := P.ndof) (i := P.poff) hn hpo
    rw [Nat.mul_comm]
    have := hw.g1
    omega
  unfold Plast.kinet
  refine Res.Sat.bind (scalarGradAt_ok (by rw [h.pgrad.1]; exact hc) h.pgrad.2.ge (by omega) hw.g1 hpo
    (by omega) h.g1 h.g2 hk.grad) fun pg hpg => ?_
  rw [interpolate1_ok (by omega) hB.ge (by omega) hdof, Res.ok_bind,
    interpolateN_ok (by rw [h.proj.1]; exact hc) h.proj.2.ge hB.ge (by omega) (by
      intro n i hn hi
      have := dof_lt (d := P.d) (ndof := P.d) (i := i) hn hi
      have := hw.n1
      rw [Nat.mul_comm P.d n]
      omega), Res.ok_bind]
  generalize hpj : w.proj.row c _ = pj
  have hj : RowOf w.proj c P.d (P.projOf (node.e c)) pj := by rw [← hpj]; exact rowOf_row
  clear hpj
  rw [cellDensity_ok (by omega) hw.z1, Res.ok_bind]
  dsimp only
  rw [devStress_ok hd _ (by rw [h.elastic.1]; exact hc) h.elastic.2 (by rw [h.dev.1]; exact hc) h.dev.2, Res.ok_bind]
  generalize hdv : w.dev.row c _ = dv
  have hD : RowOf w.dev c (stressTerms P.d) (P.devOf (global.e c) (locl.e c) (control.e c) (config.e c)) dv := by
    rw [← hdv]
    refine rowOf_row.congr fun t ht => ?_
    exact devForm_congr hd hk.elastic ht
  clear hdv
  have hds : P.d ≤ stressTerms P.d := by rcases hd with e | e <;> rw [e] <;> decide
  refine Res.Sat.bind (strainDivergence_ok hd (by rw [h.total.1]; exact hc) (by rw [h.total.2]; exact hds)
    (by rw [h.div]; exact hc)) fun di hdi => ?_
  rw [rd_at0 (by rw [List.length_set]; omega), Res.ok_bind, at0_set (by omega), if_pos rfl]
  refine Res.Sat.bind (wr_entry (by rw [List.length_set]; omega) _) fun pr hpr => ?_
  replace hpr : EntryOf w.press c (P.pressOf (global.e c)) pr := (entryOf_set (by omega)).trans hpr
  rw [rd_at0 (by rw [hdi.length, h.div]; exact hc), Res.ok_bind, rd_at0 (by rw [hpr.length, h.press]; exact hc),
    Res.ok_bind, rd_at0 (by rw [h.thermVol]; exact hc), Res.ok_bind]
  refine Res.Sat.bind (wr_entry (by rw [h.volStrain]; exact hc) _) fun vs hvs => ?_
  refine Res.Sat.bind (stabilization_ok pow23 P.kappa P.mat.shear (by omega) (by rw [hpg.d0, h.pgrad.1]; exact hc)
    (by rw [hpg.d1, h.pgrad.2]) (by rw [hj.d0, h.proj.1]; exact hc) (by rw [hj.d1, h.proj.2])
    (by rw [h.stab.1]; exact hc) h.stab.2.ge) fun st hst => ?_
  refine Res.Sat.bind (applyPenalty_ok _ (by rw [hst.d0, h.stab.1]; exact hc) (by rw [hst.d1, h.stab.2]))
    fun st' hst' => ?_
  refine Res.Sat.bind (P := fun q => Ext q nc P.d ∧ (P.mat.thermal = true → ∀ k, k < P.d → q.e c k =
    P.fluxOf (global.e c) (control.e c) (config.e c) k) ∧ ∀ r, r ≠ c → q.e r = w.flux.e r) ?_ ?_
  · by_cases hT : P.mat.thermal = true
    · rw [if_pos hT]
      conv => enter [1]; rw [← V2.row_self w.flux c]
      rw [forRange_row (fun k _ => -1 * (P.penOf (control.e c) * P.cond) * P.mat.tscale * w.tgrad.e c k), Res.sat_ok]
      · refine ⟨h.flux, fun _ k hkd => ?_, fun r hr => by simp [V2.row, hr]⟩
        rw [row_e, if_pos hkd, hk.tgrad hT k hkd]
        rfl
      · intro k f hkd
        rw [vrd2_ok (by rw [h.tgrad.1]; exact hc) (by rw [h.tgrad.2]; exact hkd), Res.ok_bind,
          vwr2_row (by rw [h.flux.1]; exact hc) (by rw [h.flux.2]; exact hkd)]
        rfl
    · rw [if_neg hT, Res.pure_eq, Res.sat_ok]
      exact ⟨h.flux, fun h => absurd h hT, fun _ _ => rfl⟩
  rintro q ⟨q1, q2, q3⟩
  rw [Res.pure_eq, Res.sat_ok]
  refine ⟨⟨h.vol, hpr.length.trans h.press, hvs.length.trans h.volStrain, hdi.length.trans h.div, h.temp, h.thermVol,
      h.g0, h.g1, h.g2, h.total, h.elastic, hpg.ext h.pgrad, hj.ext h.proj, hD.ext h.dev, hst'.ext (hst.ext h.stab),
      h.tgrad, q1, h.cauchy, h.accum, h.mult, h.plastic, h.back⟩,
    ⟨hk.grad, hk.vol, hk.total, hk.elastic, hk.tgrad, hk.thermVol⟩, ⟨hpr.val, ?_, hD.val, ?_, q2⟩,
    fun r hr => ⟨rfl, hD.other r hr, rfl, q3 r hr, rfl, rfl, rfl, rfl, rfl⟩⟩
  · dsimp only
    rw [hvs.val, hdi.val, hpr.val, sum_congr rfl fun k hkd => hk.total k ((mem_range.1 hkd).trans_le hds)]
    unfold Plast.gapOf Plast.divOf
    by_cases hT : P.mat.thermal = true
    · rw [if_pos hT, hk.thermVol hT]
      rfl
    · rw [if_neg hT, show P.thermVolOf (global.e c) = 0 from if_neg hT, sub_zero]
      rfl
  · intro k hkd
    dsimp only
    rw [hst'.val k hkd, hst.val k hkd, hpg.val k hkd, hj.val k hkd, hk.vol]
    rfl

theorem add_ok {T : V2 Nat} (hT0 : T.d0 = P.d) (hT1 : T.d1 = P.d)
    (hT : ∀ i j, i < P.d → j < P.d → T.e i j = voigtIndex P.d i j) {c : Nat} (hc : c < nc) {w : PViews R}
    (h : w.Ok P.d nc) (hk : Kin fabs P (global.e c) (locl.e c) (config.e c) c w)
    (hq : Kinet fabs pow23 P (global.e c) (locl.e c) (node.e c) (control.e c) (config.e c) c w)
    {out : V2 R} (ho0 : nc ≤ out.d0) (ho1 : (P.d + 1) * P.ndof ≤ out.d1) :
    P.add T c w out = .ok (out.row c (out.e c +
      P.solidRow fabs pow23 (global.e c) (locl.e c) (node.e c) (control.e c) (config.e c))) := by
  have hd' : P.d = 1 ∨ P.d = 2 ∨ P.d = 3 := .inr hd
  have hg0 := h.g0
  have hv := h.vol
  have hvt := numVoigt_le hd
  have hdof : ∀ off, off < P.ndof → ∀ n, n < P.d + 1 → n * P.ndof + off < out.d1 := by
    intro off ho n hn
    have := dof_lt (d := P.d) (ndof := P.ndof) (i := off) hn ho
    omega
  have key : (if P.mat.thermal then fluxDivergence P.d P.ndof P.d c (out.row c (out.e c + stressRow P.d P.ndof
      (P.volOf fabs (config.e c)) (P.devOf (global.e c) (locl.e c) (control.e c) (config.e c)) (gradForm P.d (config.e c))))
      w.flux w.grad w.vol (-1) else pure (out.row c (out.e c + stressRow P.d P.ndof
      (P.volOf fabs (config.e c)) (P.devOf (global.e c) (locl.e c) (control.e c) (config.e c))
      (gradForm P.d (config.e c)))) : Res (V2 R)) = .ok (out.row c (out.e c + stressRow P.d P.ndof
      (P.volOf fabs (config.e c)) (P.devOf (global.e c) (locl.e c) (control.e c) (config.e c)) (gradForm P.d (config.e c)) +
      if P.mat.thermal then fluxRow P.d P.ndof P.d (P.volOf fabs (config.e c))
        (fun k => -P.fluxOf (global.e c) (control.e c) (config.e c) k) (gradForm P.d (config.e c)) else 0)) := by
    by_cases hT : P.mat.thermal = true
    · rw [if_pos hT, if_pos hT, fluxDivergence_neg (out := V2.row out c _) (by show c < out.d0; omega)
        (hdof _ P.lt_ndof) (by rw [h.flux.1]; exact hc) h.flux.2 (by omega) h.g1 h.g2 (by omega) (hq.flux hT) hk.grad
        hk.vol, V2.row_row, row_e]
    · rw [if_neg hT, if_neg hT, add_zero]
      rfl
  unfold Plast.add
  rw [stressDivergence_le hd' hT0 hT1 hT (by omega) ho1 P.le_ndof (by rw [h.dev.1]; exact hc)
    (by rw [h.dev.2]; exact hvt) (by omega) h.g1 h.g2 (by omega)
    (fun t ht => hq.dev t (ht.trans_le hvt)) hk.grad hk.vol, Res.ok_bind, key, Res.ok_bind,
    pressureDivergence_ok (out := V2.row out c _) (by show c < out.d0; omega) ho1 P.le_ndof
      (by rw [h.press]; exact hc) (by omega) (by omega) h.g1 h.g2 hk.grad hq.press hk.vol, Res.ok_bind, V2.row_row, row_e,
    fluxDivergence_neg (out := V2.row out c _) (by show c < out.d0; omega) (hdof _ P.poff_lt)
      (by rw [h.stab.1]; exact hc) h.stab.2 (by omega) h.g1 h.g2 (by omega) hq.stab hk.grad hk.vol, Res.ok_bind,
    V2.row_row, row_e,
    project1_form (out := V2.row out c _) (by show c < out.d0; omega) hB.ge (by omega)
      (by rw [h.volStrain]; exact hc) (fun n hn => by
        rw [Nat.mul_comm]; exact hdof _ P.poff_lt n hn) hk.vol hq.gap, V2.row_row, row_e]
  unfold Plast.solidRow
  congr 2
  simp only [add_assoc]

theorem plots_ok {c : Nat} (hc : c < nc) {w : PViews R} (h : w.Ok P.d nc)
    (hk : Kin fabs P (global.e c) (locl.e c) (config.e c) c w)
    (hq : Kinet fabs pow23 P (global.e c) (locl.e c) (node.e c) (control.e c) (config.e c) c w) :
    (P.plots locl control c w).Sat fun w' => w'.Ok P.d nc ∧
      Out P (global.e c) (locl.e c) (control.e c) (config.e c) c w' ∧ ∀ r, r ≠ c → Same r w w' := by
  have hl0 := hw.l0
  have hz0 := hw.z0
  have hl1 := hw.l1
  have hlt : 1 < localDofs P.d := by rcases hd with e | e <;> rw [e] <;> decide
  unfold Plast.plots
  rw [cellDensity_ok (by omega) hw.z1, Res.ok_bind]
  dsimp only
  refine Res.Sat.bind (cauchyStress_ok hd _ _ (by rw [h.elastic.1]; exact hc) h.elastic.2
    (by rw [h.cauchy.1]; exact hc) h.cauchy.2) fun ca hca => ?_
  rw [vrd2_ok (by omega) (by omega), Res.ok_bind]
  refine Res.Sat.bind (wr_entry (by rw [h.mult]; exact hc) _) fun mu hmu => ?_
  rw [vrd2_ok (by omega) (by omega), Res.ok_bind]
  refine Res.Sat.bind (wr_entry (by rw [h.accum]; exact hc) _) fun ac hac => ?_
  refine Res.Sat.bind (plasticTable_ok hd (by omega) hl1 (by rw [h.plastic.1]; exact hc) h.plastic.2) fun pl hpl => ?_
  refine Res.Sat.bind (backTable_ok hd (by omega) hl1 (by rw [h.back.1]; exact hc) h.back.2) fun ba hba => ?_
  rw [Res.pure_eq, Res.sat_ok]
  exact ⟨⟨h.vol, h.press, h.volStrain, h.div, h.temp, h.thermVol, h.g0, h.g1, h.g2, h.total, h.elastic, h.pgrad, h.proj,
      h.dev, h.stab, h.tgrad, h.flux, hca.ext h.cauchy, hac.length.trans h.accum, hmu.length.trans h.mult,
      hpl.ext h.plastic, hba.ext h.back⟩,
    ⟨hq.dev, hk.elastic, hq.flux, fun t ht => (hca.val t ht).trans (cauchyForm_congr hd hk.elastic ht), hac.val, hmu.val,
      hpl.val, hba.val⟩,
    fun r hr => ⟨rfl, rfl, rfl, rfl, hca.other r hr, hac.other r hr, hmu.other r hr, hpl.other r hr, hba.other r hr⟩⟩

theorem cellBody_ok {T : V2 Nat} (hT0 : T.d0 = P.d) (hT1 : T.d1 = P.d)
    (hT : ∀ i j, i < P.d → j < P.d → T.e i j = voigtIndex P.d i j) {c : Nat} (hc : c < nc) {w : PViews R}
    (h : w.Ok P.d nc) (h0 : ∀ t, w.total.e c t = 0) {out : V2 R} (ho0 : nc ≤ out.d0)
    (ho1 : (P.d + 1) * P.ndof ≤ out.d1) :
    (P.cellBody fabs pow23 T global locl node control config c (w, out)).Sat fun s => (s.1.Ok P.d nc ∧
      Out P (global.e c) (locl.e c) (control.e c) (config.e c) c s.1 ∧ ∀ r, r ≠ c → Same r w s.1) ∧
      s.2 = out.row c (out.e c +
        P.solidRow fabs pow23 (global.e c) (locl.e c) (node.e c) (control.e c) (config.e c)) := by
  unfold Plast.cellBody
  refine Res.Sat.bind (kin_ok fabs hd hB hw hc h h0) fun w1 ⟨a1, a2, a3⟩ => ?_
  refine Res.Sat.bind (kinet_ok fabs pow23 hd hB hw hc a1 a2) fun w2 ⟨b1, b2, b3, b4⟩ => ?_
  dsimp only
  rw [add_ok fabs pow23 hd hB hw hT0 hT1 hT hc b1 b2 b3 ho0 ho1, Res.ok_bind]
  refine Res.Sat.bind (plots_ok fabs pow23 hd hB hw hc b1 b2 b3) fun w3 ⟨c1, c2, c3⟩ => ?_
  rw [Res.pure_eq, Res.sat_ok]
  exact ⟨⟨c1, c2, fun r hr => ((a3 r hr).trans (b4 r hr)).trans (c3 r hr)⟩, rfl⟩

end Cell

/-- **Closed form of the residual**, for every schedule: the result, and the views handed to the output. -/
theorem evaluate_ok {P : Plast R} (hd : P.d = 2 ∨ P.d = 3) (hB : P.mat.basis.length = P.d + 1) {cells : List Nat}
    {global locl node control : V2 R} {config : V3 R} (hw : GWs P cells.length global locl node control config)
    (hL : ∀ L ∈ P.bodyLoads, L.Ok P.d P.ndof cells) {sched : Nat → List Nat}
    (hs : ∀ k, IsSchedule (sched k) cells.length) (init : Nat → Nat → Nat) {result : V2 R}
    (hr0 : cells.length ≤ result.d0) (hr1 : (P.d + 1) * P.ndof ≤ result.d1) :
    ∃ w : PViews R, P.evaluate fabs pow23 init sched cells global locl node control config result =
      .ok (addRows result cells.length fun c =>
        P.row fabs pow23 c (atN cells c) (global.e c) (locl.e c) (node.e c) (control.e c) (config.e c), w) ∧
      w.Ok P.d cells.length ∧
      ∀ c, c < cells.length → Out P (global.e c) (locl.e c) (control.e c) (config.e c) c w := by
  obtain ⟨T, hTr, hT0, hT1, hT⟩ := voigtTable_ok (.inr hd) init
  obtain ⟨⟨w, out⟩, hwr, hI, ho⟩ := rowLoopD (hs 0) (I := fun D (w : PViews R) => w.Ok P.d cells.length ∧
      (∀ c ∈ D, Out P (global.e c) (locl.e c) (control.e c) (config.e c) c w) ∧
      ∀ c, c ∉ D → ∀ t, w.total.e c t = 0)
    (w := PViews.new P.d cells.length) ⟨PViews.new_ok _ _, by simp, fun _ _ _ => rfl⟩
    (result := result) (fun c => P.solidRow fabs pow23 (global.e c) (locl.e c) (node.e c) (control.e c) (config.e c))
    (body := P.cellBody fabs pow23 T global locl node control config) (by
      rintro D c w out hc hD ⟨h1, h2, h3⟩ h4 h5
      refine (cellBody_ok fabs pow23 hd hB hw hT0 hT1 hT hc h1 (h3 c hD) (by omega) (by omega)).mono ?_
      rintro s ⟨⟨k1, k2, k3⟩, k4⟩
      refine ⟨⟨k1, fun r hr => ?_, fun r hr t => ?_⟩, k4⟩
      · by_cases hne : r = c
        · subst hne; exact k2
        · exact (h2 r ((mem_insert.1 hr).resolve_left hne)).same (k3 r hne)
      · have hne : r ≠ c := by rintro rfl; exact hr (mem_insert_self _ _)
        rw [(k3 r hne).total]
        exact h3 r (fun h => hr (mem_insert_of_mem h)) t)
  dsimp only at hI ho
  refine ⟨w, ?_, hI.1, fun c hc => hI.2.1 c (mem_range.2 hc)⟩
  unfold Plast.evaluate
  rw [hTr, Res.ok_bind, hwr, Res.ok_bind]
  dsimp only
  obtain ⟨k', hk⟩ := bodyLoads_ok hs hw.z0.ge hw.z1 (-1 * P.load) P.bodyLoads out 1 hL (by rw [ho]; exact hr0)
    (by rw [ho]; exact hr1)
  rw [hk, Res.ok_bind, ho]
  dsimp only
  rw [Res.pure_eq, addRows_addRows]
  rfl

end Plato.Plast
