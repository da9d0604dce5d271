import Verif.Stab.Model
import Verif.Plast.Loop

/-!
# Stabilised elastostatics: closed form of `evaluate`
-/

namespace Plato.Stab
open Finset Plato Plato.Mech Plato.Thermal Plato.Plast Plato.Dyn
open Plato.Tm (fluxRow heatRow)
open Plato.J2 (row_e)

variable {R : Type} [CommRing R]

/-! ## Specification -/

section Spec
variable [Div R] (P : Stab R)

/-- Volume of a cell. -/
def Stab.volOf (fabs : R → R) (X : Nat → Nat → R) : R := fabs (detForm P.d X) * P.cubWeight

/-- Strain of a cell. -/
def Stab.strainOf (U : Nat → R) (X : Nat → Nat → R) (t : Nat) : R :=
  voigtStrain P.d (fun n i => U (n * (P.d + 1) + i)) (gradForm P.d X) t

/-- Stress of the stiffness. -/
def Stab.elasticOf (U : Nat → R) (X : Nat → Nat → R) (t : Nat) : R :=
  ∑ s ∈ range (numVoigt P.d), P.strainOf U X s * P.stiff t s

/-- Stress less a third of the sum of the normal stresses. -/
def Stab.devOf (U : Nat → R) (X : Nat → Nat → R) (t : Nat) : R :=
  P.elasticOf U X t - if t < P.d then (∑ k ∈ range P.d, P.elasticOf U X k) / 3 else 0

/-- Change of volume. -/
def Stab.divOf (U : Nat → R) (X : Nat → Nat → R) : R := ∑ k ∈ range P.d, P.strainOf U X k

omit [Div R] in
/-- Scaled pressure at the integration point. -/
def Stab.pressOf (U : Nat → R) : R :=
  interp (P.d + 1) (at0 P.basis) (fun n => U ((P.d + 1) * n + P.d)) * P.kappa

/-- Gradient of the pressure. -/
def Stab.pgradOf (U : Nat → R) (X : Nat → Nat → R) (k : Nat) : R :=
  scalarField P.d (fun n => U (n * (P.d + 1) + P.d)) (gradForm P.d X) k

omit [Div R] in
/-- Projected gradient at the integration point. -/
def Stab.projOf (N : Nat → R) (i : Nat) : R := interp (P.d + 1) (at0 P.basis) fun n => N (P.d * n + 0 + i)

/-- Bulk and shear modulus. -/
def Stab.bulkOf : R := (∑ j ∈ range P.d, P.stiff 0 j) / (P.d : R)
def Stab.shearOf : R :=
  (∑ j ∈ range (numVoigt P.d - P.d), P.stiff (j + P.d) (j + P.d)) / ((numVoigt P.d - P.d : Nat) : R)

/-- Penalty of a cell. -/
def Stab.penOf (Z : Nat → R) : R := P.pen (meanDensity (P.d + 1) Z)

/-- Difference of the changes of volume. -/
def Stab.gapOf (U : Nat → R) (X : Nat → Nat → R) : R := P.kappa * (P.divOf U X - P.pressOf U / P.bulkOf)

/-- Stabilisation. -/
def Stab.stabOf (fabs pow23 : R → R) (U N : Nat → R) (X : Nat → Nat → R) (k : Nat) : R :=
  P.kappa * (pow23 (P.volOf fabs X) / (2 * P.shearOf)) * (P.kappa * P.pgradOf U X k - P.projOf N k)

/-- What the loop over the cells adds to a row. -/
def Stab.solidRow (fabs pow23 : R → R) (U N Z : Nat → R) (X : Nat → Nat → R) : Nat → R :=
  stressRow P.d (P.d + 1) (P.volOf fabs X) (fun t => P.devOf U X t * P.penOf Z) (gradForm P.d X) +
    pressRow P.d (P.d + 1) (P.volOf fabs X) (P.pressOf U * P.penOf Z) (gradForm P.d X) +
    fluxRow P.d (P.d + 1) P.d (P.volOf fabs X) (fun k => -(P.stabOf fabs pow23 U N X k * P.penOf Z))
      (gradForm P.d X) +
    heatRow P.d (P.d + 1) P.d (at0 P.basis) (P.volOf fabs X) (P.gapOf U X * P.penOf Z)

/-- All body loads. -/
def Stab.loadRow (c gc : Nat) (Z : Nat → R) : Nat → R :=
  (P.bodyLoads.map fun L => L.row P.d (P.d + 1) c gc Z (-1)).sum

end Spec

/-! ## Functors -/

theorem hookeStress_ok {d c : Nat} {C : Nat → Nat → R} {strn out : V2 R} (ho : c < out.d0)
    (ho1 : out.d1 = numVoigt d) (he : c < strn.d0) (he1 : strn.d1 = numVoigt d) :
    (hookeStress d C c strn out).Sat (RowOf out c (numVoigt d) fun t =>
      ∑ s ∈ range (numVoigt d), strn.e c s * C t s) := by
  unfold hookeStress
  conv => enter [1]; rw [← V2.row_self out c]
  rw [forRange_row (fun t _ => ∑ s ∈ range (numVoigt d), strn.e c s * C t s), Res.sat_ok]
  · exact rowOf_row
  intro t f ht
  rw [vwr2_row ho (by omega), Res.ok_bind,
    forRange_addrow (fun s => Pi.single t (strn.e c s * C t s)) _ (by
      intro s f hs'
      rw [vrd2_ok he (by omega), Res.ok_bind]
      exact accum2_row ho (by omega))]
  congr 2
  funext r
  by_cases h : r = t
  · subst h; simp
  · simp [h]

theorem normalSum_ok {d c : Nat} {y : V2 R} (hy : c < y.d0) (hy1 : d ≤ y.d1) :
    normalSum d c y = .ok (∑ k ∈ range d, y.e c k) := by
  unfold normalSum
  have key := forRange_eq (n := d) (body := fun k s => do
    let a ← vrd2 y c k
    pure (s + a)) (fun k => ∑ n ∈ range k, y.e c n) (by
      intro k hk
      rw [vrd2_ok hy (by omega), Res.ok_bind, Res.pure_eq, sum_range_succ])
  rw [sum_range_zero] at key
  exact key

variable [Div R]

theorem subtractMean_ok {d c n : Nat} (tr : R) {out : V2 R} {f : Nat → R} (ho : c < out.d0) (hn : d ≤ n)
    (ho1 : n ≤ out.d1) (hf : ∀ t, t < n → out.e c t = f t) :
    (subtractMean d c tr out).Sat (RowOf out c n fun t => f t - if t < d then tr / 3 else 0) := by
  unfold subtractMean
  conv => enter [1]; rw [← V2.row_self out c]
  rw [forRange_row (fun _ v => v - tr / 3), Res.sat_ok]
  · refine ⟨rfl, rfl, fun t ht => ?_, fun r hr => by simp [V2.row, hr]⟩
    rw [row_e, hf t ht]
    by_cases h : t < d <;> simp [h]
  intro k f hk
  rw [vrd2_row ho (by omega), Res.ok_bind, vwr2_row ho (by omega)]
  congr 2
  funext r
  by_cases h : r = k <;> simp [h]

theorem bulk_ok (P : Stab R) : P.bulk = .ok P.bulkOf := by
  unfold Stab.bulk Stab.bulkOf
  have key := forRange_eq (n := P.d) (body := fun j (s : R) => (pure (s + P.stiff 0 j) : Res R))
    (fun k => ∑ n ∈ range k, P.stiff 0 n) (by intro k hk; rw [Res.pure_eq, sum_range_succ])
  rw [sum_range_zero] at key
  rw [key, Res.ok_bind, Res.pure_eq]

theorem shear_ok (P : Stab R) : P.shear = .ok P.shearOf := by
  unfold Stab.shear Stab.shearOf
  have key := forRange_eq (n := numVoigt P.d - P.d)
    (body := fun j (s : R) => (pure (s + P.stiff (j + P.d) (j + P.d)) : Res R))
    (fun k => ∑ n ∈ range k, P.stiff (n + P.d) (n + P.d)) (by intro k hk; rw [Res.pure_eq, sum_range_succ])
  rw [sum_range_zero] at key
  rw [key, Res.ok_bind, Res.pure_eq]

/-! ## Views -/

/-- Extents of the views. -/
structure SViews.Ok (d nc : Nat) (w : SViews R) : Prop where
  vol : w.vol.length = nc
  press : w.press.length = nc
  volStrain : w.volStrain.length = nc
  g0 : w.grad.d0 = nc
  g1 : w.grad.d1 = d + 1
  g2 : w.grad.d2 = d
  strain : Ext w.strain nc (numVoigt d)
  pgrad : Ext w.pgrad nc d
  proj : Ext w.proj nc d
  dev : Ext w.dev nc (numVoigt d)
  stab : Ext w.stab nc d

omit [Div R] in
theorem SViews.new_ok (d nc : Nat) : (SViews.new d nc : SViews R).Ok d nc :=
  ⟨List.length_replicate, List.length_replicate, List.length_replicate, rfl, rfl, rfl, ⟨rfl, rfl⟩, ⟨rfl, rfl⟩,
    ⟨rfl, rfl⟩, ⟨rfl, rfl⟩, ⟨rfl, rfl⟩⟩

/-- Extents of the worksets. -/
structure SWs (P : Stab R) (nc : Nat) (state node control : V2 R) (config : V3 R) : Prop where
  g0 : state.d0 = nc
  g1 : (P.d + 1) * (P.d + 1) ≤ state.d1
  n0 : node.d0 = nc
  n1 : (P.d + 1) * P.d ≤ node.d1
  z0 : control.d0 = nc
  z1 : P.d + 1 ≤ control.d1
  x0 : config.d0 = nc
  x1 : config.d1 = P.d + 1
  x2 : config.d2 = P.d

variable (fabs pow23 : R → R)

/-- Geometry and kinematics of a cell in the views. -/
structure Kin (P : Stab R) (U : Nat → R) (X : Nat → Nat → R) (c : Nat) (w : SViews R) : Prop where
  grad : ∀ n k, n < P.d + 1 → k < P.d → w.grad.e c n k = gradForm P.d X n k
  vol : at0 w.vol c = P.volOf fabs X
  strain : ∀ t, t < numVoigt P.d → w.strain.e c t = P.strainOf U X t
  pgrad : ∀ k, k < P.d → w.pgrad.e c k = P.pgradOf U X k

/-- Weighted response of a cell in the views. -/
structure Kinet (P : Stab R) (U N Z : Nat → R) (X : Nat → Nat → R) (c : Nat) (w : SViews R) : Prop where
  press : at0 w.press c = P.pressOf U * P.penOf Z
  gap : at0 w.volStrain c = P.gapOf U X * P.penOf Z
  dev : ∀ t, t < numVoigt P.d → w.dev.e c t = P.devOf U X t * P.penOf Z
  stab : ∀ k, k < P.d → w.stab.e c k = P.stabOf fabs pow23 U N X k * P.penOf Z

section Cell
variable {P : Stab R} (hd : P.d = 2 ∨ P.d = 3) (hB : P.basis.length = P.d + 1) {nc : Nat}
  {state node control : V2 R} {config : V3 R} (hw : SWs P nc state node control config)
include hd hB hw

omit hB in
theorem kin_ok {c : Nat} (hc : c < nc) {w : SViews R} (h : w.Ok P.d nc) (h0 : ∀ t, w.strain.e c t = 0) :
    (P.kin fabs state config c w).Sat fun w' => w'.Ok P.d nc ∧
      Kin fabs P (state.e c) (config.e c) c w' ∧ ∀ r, r ≠ c → w'.strain.e r = w.strain.e r := by
  have hd' : P.d = 1 ∨ P.d = 2 ∨ P.d = 3 := .inr hd
  have hv := h.vol
  have hg0 := h.g0
  have hx0 := hw.x0
  have hu0 := hw.g0
  unfold Stab.kin
  rw [computeGradient_form fabs hd' (by omega) hw.x1 hw.x2 (by omega) h.g1 h.g2 (by omega), Res.ok_bind]
  dsimp only
  generalize hg : w.grad.cell c _ = g
  have hG : ∀ n k, n < P.d + 1 → k < P.d → g.e c n k = gradForm P.d (config.e c) n k := by
    intro n k hn hk
    rw [← hg]
    simp only [V3.cell, if_true]
    rw [if_pos ⟨hn, hk⟩]
  have g0 : g.d0 = nc := by rw [← hg]; exact h.g0
  have g1 : g.d1 = P.d + 1 := by rw [← hg]; exact h.g1
  have g2 : g.d2 = P.d := by rw [← hg]; exact h.g2
  clear hg
  rw [rd_at0 (by rw [List.length_set]; omega), Res.ok_bind]
  refine Res.Sat.bind (wr_entry (by rw [List.length_set]; omega) _) fun v hv' => ?_
  replace hv' := ((entryOf_set (a := fabs (detForm P.d (config.e c))) (by omega)).trans hv')
  rw [at0_set (by omega), if_pos rfl] at hv'
  rw [strain_ok (s := w.strain) (u := state) (g := g) (c := c) hd' (by rw [h.strain.1]; exact hc)
    h.strain.2 (by omega) hw.g1 (by omega) g1 g2 (Nat.le_succ _), Res.ok_bind]
  refine Res.Sat.bind (scalarGradAt_ok (by rw [h.pgrad.1]; exact hc) h.pgrad.2.ge (by omega) hw.g1 (Nat.lt_succ_self _)
    (by omega) g1 g2 hG) fun pg hpg => ?_
  rw [Res.pure_eq, Res.sat_ok]
  refine ⟨⟨hv'.length.trans hv, h.press, h.volStrain, g0, g1, g2, h.strain, hpg.ext h.pgrad, h.proj, h.dev, h.stab⟩,
    ⟨hG, hv'.val, fun t ht => ?_, hpg.val⟩, fun r hr => by simp [V2.row, hr]⟩
  dsimp only
  rw [row_e, if_pos ht, h0, ite_self, zero_add]
  exact voigtStrain_congr hd' (fun _ _ _ _ => rfl) hG

theorem kinetics_ok {c : Nat} (hc : c < nc) {w : SViews R} (h : w.Ok P.d nc)
    (hk : Kin fabs P (state.e c) (config.e c) c w) {p : R} (hp : at0 w.press c = p) :
    (P.kinetics pow23 P.bulkOf P.shearOf c w).Sat fun w' => w'.Ok P.d nc ∧
      Kin fabs P (state.e c) (config.e c) c w' ∧
      at0 w'.press c = p * P.kappa ∧
      at0 w'.volStrain c = P.kappa * (P.divOf (state.e c) (config.e c) - p * P.kappa / P.bulkOf) ∧
      (∀ t, t < numVoigt P.d → w'.dev.e c t = P.devOf (state.e c) (config.e c) t) ∧
      (∀ N : Nat → R, (∀ k, k < P.d → w.proj.e c k = P.projOf N k) →
        ∀ k, k < P.d → w'.stab.e c k = P.stabOf fabs pow23 (state.e c) N (config.e c) k) ∧
      w'.strain = w.strain := by
  have hds : P.d ≤ numVoigt P.d := by rcases hd with e | e <;> rw [e] <;> decide
  have hl := h.press
  unfold Stab.kinetics
  refine Res.Sat.bind (hookeStress_ok (by rw [h.dev.1]; exact hc) h.dev.2 (by rw [h.strain.1]; exact hc) h.strain.2)
    fun dv hdv => ?_
  have hval : ∀ t, t < numVoigt P.d → dv.e c t = P.elasticOf (state.e c) (config.e c) t := by
    intro t ht
    rw [hdv.val t ht]
    exact sum_congr rfl fun s hs => by rw [hk.strain s (mem_range.1 hs)]
  rw [normalSum_ok (by rw [hdv.d0, h.dev.1]; exact hc) (by rw [hdv.d1, h.dev.2]; exact hds), Res.ok_bind]
  refine Res.Sat.bind (subtractMean_ok _ (by rw [hdv.d0, h.dev.1]; exact hc) hds (by rw [hdv.d1, h.dev.2]) hval)
    fun dv' hdv' => ?_
  rw [normalSum_ok (by rw [h.strain.1]; exact hc) (by rw [h.strain.2]; exact hds), Res.ok_bind,
    rd_at0 (by omega), Res.ok_bind]
  refine Res.Sat.bind (wr_entry (by omega) _) fun pr hpr => ?_
  rw [rd_at0 (by rw [hpr.length]; omega), Res.ok_bind]
  refine Res.Sat.bind (wr_entry (by rw [h.volStrain]; exact hc) _) fun vs hvs => ?_
  refine Res.Sat.bind (stabilization_ok pow23 P.kappa P.shearOf (by rw [h.vol]; exact hc) (by rw [h.pgrad.1]; exact hc)
    h.pgrad.2.ge (by rw [h.proj.1]; exact hc) h.proj.2.ge (by rw [h.stab.1]; exact hc) h.stab.2.ge) fun st hst => ?_
  rw [Res.pure_eq, Res.sat_ok]
  refine ⟨⟨h.vol, hpr.length.trans h.press, hvs.length.trans h.volStrain, h.g0, h.g1, h.g2, h.strain, h.pgrad, h.proj,
    hdv'.ext (hdv.ext h.dev), hst.ext h.stab⟩, ⟨hk.grad, hk.vol, hk.strain, hk.pgrad⟩, by rw [hpr.val, hp], ?_, ?_, ?_,
    rfl⟩
  · dsimp only
    rw [hvs.val, hpr.val, hp]
    unfold Stab.divOf
    rw [sum_congr rfl fun k hkd => hk.strain k ((mem_range.1 hkd).trans_le hds)]
  · intro t ht
    dsimp only
    rw [hdv'.val t ht]
    unfold Stab.devOf
    rw [sum_congr rfl fun k hkd => hval k ((mem_range.1 hkd).trans_le hds)]
  · intro N hN k hkd
    dsimp only
    rw [hst.val k hkd, hk.vol, hk.pgrad k hkd, hN k hkd]
    rfl

theorem kinet_ok {c : Nat} (hc : c < nc) {w : SViews R} (h : w.Ok P.d nc)
    (hk : Kin fabs P (state.e c) (config.e c) c w) :
    (P.kinet pow23 P.bulkOf P.shearOf state node control c w).Sat fun w' => w'.Ok P.d nc ∧
      Kin fabs P (state.e c) (config.e c) c w' ∧
      Kinet fabs pow23 P (state.e c) (node.e c) (control.e c) (config.e c) c w' ∧ w'.strain = w.strain := by
  have hu0 := hw.g0
  have hn0 := hw.n0
  have hz0 := hw.z0
  have hl := h.press
  have hdof : ∀ n, n < P.d + 1 → (P.d + 1) * n + P.d < state.d1 := by
    intro n hn
    have := dof_lt (d := P.d) (ndof := P.d + 1) (i := P.d) hn (Nat.lt_succ_self _)
    rw [Nat.mul_comm]
    have := hw.g1
    omega
  unfold Stab.kinet
  rw [interpolateN_ok (by rw [h.proj.1]; exact hc) h.proj.2.ge hB.ge (by omega) (by
      intro n i hn hi
      have := dof_lt (d := P.d) (ndof := P.d) (i := i) hn hi
      have := hw.n1
      rw [Nat.mul_comm P.d n]
      omega), Res.ok_bind]
  generalize hpj : w.proj.row c _ = pj
  have hj : RowOf w.proj c P.d (P.projOf (node.e c)) pj := by rw [← hpj]; exact rowOf_row
  clear hpj
  rw [interpolate1_ok (by omega) hB.ge (by omega) hdof, Res.ok_bind]
  refine Res.Sat.bind (kinetics_ok fabs pow23 hd hB hw hc (w := { w with proj := pj, press := _ })
    ⟨h.vol, by rw [List.length_set]; exact hl, h.volStrain, h.g0, h.g1, h.g2, h.strain, h.pgrad, hj.ext h.proj, h.dev,
      h.stab⟩ ⟨hk.grad, hk.vol, hk.strain, hk.pgrad⟩ 
    (p := interp (P.d + 1) (at0 P.basis) fun n => state.e c ((P.d + 1) * n + P.d))
    (by dsimp only; rw [at0_set (by omega), if_pos rfl]))
    fun w1 ⟨a1, a2, a3, a4, a5, a6, a7⟩ => ?_
  rw [applyWeighting_ok (by omega) hw.z1 (by rw [a1.dev.1]; exact hc) a1.dev.2.ge, Res.ok_bind,
    applyWeighting_ok (by omega) hw.z1 (by rw [a1.stab.1]; exact hc) a1.stab.2.ge, Res.ok_bind,
    applyWeighting1_ok (by omega) hw.z1 (by rw [a1.press]; exact hc), Res.ok_bind,
    applyWeighting1_ok (by omega) hw.z1 (by rw [a1.volStrain]; exact hc), Res.ok_bind, Res.pure_eq, Res.sat_ok]
  refine ⟨⟨a1.vol, by rw [List.length_set]; exact a1.press, by rw [List.length_set]; exact a1.volStrain, a1.g0, a1.g1,
    a1.g2, a1.strain, a1.pgrad, a1.proj, a1.dev, a1.stab⟩, ⟨a2.grad, a2.vol, a2.strain, a2.pgrad⟩,
    ⟨?_, ?_, fun t ht => ?_, fun k hkd => ?_⟩, a7⟩
  · dsimp only
    rw [at0_set (by rw [a1.press]; exact hc), if_pos rfl, a3]
    rfl
  · dsimp only
    rw [at0_set (by rw [a1.volStrain]; exact hc), if_pos rfl, a4]
    rfl
  · dsimp only
    rw [row_e, if_pos ht, a5 t ht]
    rfl
  · dsimp only
    rw [row_e, if_pos hkd, a6 (node.e c) hj.val k hkd]
    rfl

omit hw in
theorem add_ok {T : V2 Nat} (hT0 : T.d0 = P.d) (hT1 : T.d1 = P.d)
    (hT : ∀ i j, i < P.d → j < P.d → T.e i j = voigtIndex P.d i j) {c : Nat} (hc : c < nc) {w : SViews R}
    (h : w.Ok P.d nc) (hk : Kin fabs P (state.e c) (config.e c) c w)
    (hq : Kinet fabs pow23 P (state.e c) (node.e c) (control.e c) (config.e c) c w)
    {out : V2 R} (ho0 : nc ≤ out.d0) (ho1 : (P.d + 1) * (P.d + 1) ≤ out.d1) :
    P.add T c w out = .ok (out.row c (out.e c +
      P.solidRow fabs pow23 (state.e c) (node.e c) (control.e c) (config.e c))) := by
  have hd' : P.d = 1 ∨ P.d = 2 ∨ P.d = 3 := .inr hd
  have hg0 := h.g0
  have hv := h.vol
  have hdof : ∀ n, n < P.d + 1 → n * (P.d + 1) + P.d < out.d1 := by
    intro n hn
    have := dof_lt (d := P.d) (ndof := P.d + 1) (i := P.d) hn (Nat.lt_succ_self _)
    omega
  unfold Stab.add
  rw [stressDivergence_le hd' hT0 hT1 hT (by omega) ho1 (Nat.le_succ _) (by rw [h.dev.1]; exact hc)
    h.dev.2.ge (by omega) h.g1 h.g2 (by omega) hq.dev hk.grad hk.vol, Res.ok_bind,
    pressureDivergence_ok (out := V2.row out c _) (by show c < out.d0; omega) ho1 (Nat.le_succ _)
      (by rw [h.press]; exact hc) (by omega) (by omega) h.g1 h.g2 hk.grad hq.press hk.vol, Res.ok_bind, V2.row_row, row_e,
    fluxDivergence_neg (out := V2.row out c _) (by show c < out.d0; omega) hdof
      (by rw [h.stab.1]; exact hc) h.stab.2 (by omega) h.g1 h.g2 (by omega) hq.stab hk.grad hk.vol, Res.ok_bind,
    V2.row_row, row_e,
    project1_form (out := V2.row out c _) (by show c < out.d0; omega) hB.ge (by omega)
      (by rw [h.volStrain]; exact hc) (fun n hn => by
        rw [Nat.mul_comm]; exact hdof n hn) hk.vol hq.gap, V2.row_row, row_e]
  unfold Stab.solidRow
  congr 2
  simp only [add_assoc]

theorem cellBody_ok {T : V2 Nat} (hT0 : T.d0 = P.d) (hT1 : T.d1 = P.d)
    (hT : ∀ i j, i < P.d → j < P.d → T.e i j = voigtIndex P.d i j) {c : Nat} (hc : c < nc) {w : SViews R}
    (h : w.Ok P.d nc) (h0 : ∀ t, w.strain.e c t = 0) {out : V2 R} (ho0 : nc ≤ out.d0)
    (ho1 : (P.d + 1) * (P.d + 1) ≤ out.d1) :
    (P.cellBody fabs pow23 P.bulkOf P.shearOf T state node control config c (w, out)).Sat fun s => (s.1.Ok P.d nc ∧
      ∀ r, r ≠ c → s.1.strain.e r = w.strain.e r) ∧
      s.2 = out.row c (out.e c +
        P.solidRow fabs pow23 (state.e c) (node.e c) (control.e c) (config.e c)) := by
  unfold Stab.cellBody
  refine Res.Sat.bind (kin_ok fabs hd hw hc h h0) fun w1 ⟨a1, a2, a3⟩ => ?_
  refine Res.Sat.bind (kinet_ok fabs pow23 hd hB hw hc a1 a2) fun w2 ⟨b1, b2, b3, b4⟩ => ?_
  dsimp only
  rw [add_ok fabs pow23 hd hB hT0 hT1 hT hc b1 b2 b3 ho0 ho1, Res.ok_bind, Res.pure_eq, Res.sat_ok]
  exact ⟨⟨b1, fun r hr => by rw [b4]; exact a3 r hr⟩, rfl⟩

end Cell

/-- **Closed form of the residual**, for every schedule. -/
theorem evaluate_ok {P : Stab R} (hd : P.d = 2 ∨ P.d = 3) (hB : P.basis.length = P.d + 1) {cells : List Nat}
    {state node control : V2 R} {config : V3 R} (hw : SWs P cells.length state node control config)
    (hL : ∀ L ∈ P.bodyLoads, L.Ok P.d (P.d + 1) cells) {sched : Nat → List Nat}
    (hs : ∀ k, IsSchedule (sched k) cells.length) (init : Nat → Nat → Nat) {result : V2 R}
    (hr0 : cells.length ≤ result.d0) (hr1 : (P.d + 1) * (P.d + 1) ≤ result.d1) :
    P.evaluate fabs pow23 init sched cells state node control config result =
      .ok (addRows result cells.length fun c =>
        P.solidRow fabs pow23 (state.e c) (node.e c) (control.e c) (config.e c) +
          P.loadRow c (atN cells c) (control.e c)) := by
  obtain ⟨T, hTr, hT0, hT1, hT⟩ := voigtTable_ok (.inr hd) init
  obtain ⟨⟨w, out⟩, hwr, hI, ho⟩ := rowLoopD (hs 0) (I := fun D (w : SViews R) => w.Ok P.d cells.length ∧
      ∀ c, c ∉ D → ∀ t, w.strain.e c t = 0)
    (w := SViews.new P.d cells.length) ⟨SViews.new_ok _ _, fun _ _ _ => rfl⟩
    (result := result) (fun c => P.solidRow fabs pow23 (state.e c) (node.e c) (control.e c) (config.e c))
    (body := P.cellBody fabs pow23 P.bulkOf P.shearOf T state node control config) (by
      rintro D c w out hc hD ⟨h1, h3⟩ h4 h5
      refine (cellBody_ok fabs pow23 hd hB hw hT0 hT1 hT hc h1 (h3 c hD) (by omega) (by omega)).mono ?_
      rintro s ⟨⟨k1, k3⟩, k4⟩
      refine ⟨⟨k1, fun r hr t => ?_⟩, k4⟩
      have hne : r ≠ c := by rintro rfl; exact hr (mem_insert_self _ _)
      rw [k3 r hne]
      exact h3 r (fun h => hr (mem_insert_of_mem h)) t)
  dsimp only at hI ho
  unfold Stab.evaluate
  rw [bulk_ok, Res.ok_bind, shear_ok, Res.ok_bind, hTr, Res.ok_bind, hwr, Res.ok_bind]
  dsimp only
  obtain ⟨k', hk⟩ := bodyLoads_ok hs hw.z0.ge hw.z1 (-1 : R) P.bodyLoads out 1 hL (by rw [ho]; exact hr0)
    (by rw [ho]; exact hr1)
  rw [hk, Res.ok_bind, ho]
  dsimp only
  rw [Res.pure_eq, addRows_addRows]
  rfl

end Plato.Stab
