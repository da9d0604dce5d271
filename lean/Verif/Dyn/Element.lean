import Verif.Dyn.Model
import Verif.Dyn.Shared

/-!
# The element of structural dynamics: closed form of `evaluate`

One closed form for both branches of `evaluate`: without damping the two Rayleigh coefficients are zero.
-/

namespace Plato.Dyn
open Finset Plato Plato.Mech Plato.Thermal

section Functors
variable {R : Type} [CommRing R]

theorem dampedStress_ok {d c : Nat} {C : Nat → Nat → R} {e0 : Nat → R} {b : R} {stress strain velgrad : V2 R}
    (hs : c < stress.d0) (hs1 : stress.d1 = numVoigt d) (he : c < strain.d0) (he1 : strain.d1 = numVoigt d)
    (hv : c < velgrad.d0) (hv1 : velgrad.d1 = numVoigt d) :
    dampedStress d C e0 b c stress strain velgrad = .ok (stress.row c fun t => if t < numVoigt d then
      ∑ s ∈ range (numVoigt d), ((strain.e c s - e0 s) * C t s + velgrad.e c s * C t s * b) else stress.e c t) := by
  unfold dampedStress
  conv_lhs => rw [← V2.row_self stress c]
  rw [forRange_row (fun t _ => ∑ s ∈ range (numVoigt d),
    ((strain.e c s - e0 s) * C t s + velgrad.e c s * C t s * b))]
  intro t f ht
  rw [vwr2_row hs (by omega), Res.ok_bind,
    forRange_addrow (fun s => Pi.single t ((strain.e c s - e0 s) * C t s + velgrad.e c s * C t s * b)) _ (by
      intro s f hs'
      rw [vrd2_ok he (by omega), Res.ok_bind, vrd2_ok hv (by omega), Res.ok_bind]
      exact accum2_row hs (by omega))]
  congr 2
  funext r
  by_cases h : r = t
  · subst h; simp
  · simp [h]

theorem inertia_ok {d c : Nat} {rho : R} {content acc : V2 R} (hc : c < content.d0) (hc1 : d ≤ content.d1)
    (ha : c < acc.d0) (ha1 : d ≤ acc.d1) :
    inertia d rho c content acc = .ok (content.row c fun i => if i < d then acc.e c i * rho else content.e c i) := by
  unfold inertia
  conv_lhs => rw [← V2.row_self content c]
  rw [forRange_row (fun i _ => acc.e c i * rho)]
  intro i f hi
  rw [vrd2_ok ha (by omega), Res.ok_bind, vwr2_row hc (by omega)]

theorem dampedInertia_ok {d c : Nat} {rho al : R} {content vel acc : V2 R} (hc : c < content.d0)
    (hc1 : d ≤ content.d1) (ha : c < acc.d0) (ha1 : d ≤ acc.d1) (hv : c < vel.d0) (hv1 : d ≤ vel.d1) :
    dampedInertia d rho al c content vel acc = .ok (content.row c fun i => if i < d then
      acc.e c i * rho + vel.e c i * rho * al else content.e c i) := by
  unfold dampedInertia
  conv_lhs => rw [← V2.row_self content c]
  rw [forRange_row (fun i _ => acc.e c i * rho + vel.e c i * rho * al)]
  intro i f hi
  rw [vrd2_ok ha (by omega), Res.ok_bind, vrd2_ok hv (by omega), Res.ok_bind, vwr2_row hc (by omega)]

end Functors

variable {R : Type} [CommRing R] [Div R] (fabs : R → R)

/-! ## Specification -/

section Spec
variable (P : Dyn R)

/-- Component `i` of a nodal vector field at the integration point. -/
def Dyn.point (U : Nat → R) (i : Nat) : R := interp (P.el.d + 1) (at0 P.basis) fun n => U (P.el.d * n + i + 0)

/-- Stress of the solid material: elastic stress of the strain less the reference strain, and Rayleigh
damping in proportion to the strain rate. -/
def Dyn.solidStress (U V : Nat → R) (X : Nat → Nat → R) (t : Nat) : R :=
  ∑ s ∈ range (numVoigt P.el.d), ((P.el.strainForm U X s - P.el.refStrain s) * P.el.stiff t s +
    P.el.strainForm V X s * P.el.stiff t s * P.rayB)

/-- Penalised stress. -/
def Dyn.stressForm (U V Z : Nat → R) (X : Nat → Nat → R) (t : Nat) : R :=
  P.solidStress U V X t * P.el.pen (meanDensity (P.el.d + 1) Z)

/-- Penalised inertia force per volume: density times acceleration, and damping in proportion to the
velocity. -/
def Dyn.inertiaForm (V A Z : Nat → R) (i : Nat) : R :=
  (P.point A i * P.density + P.point V i * P.density * P.rayA) * P.el.pen (meanDensity (P.el.d + 1) Z)

/-- What a cell adds to the residual. -/
def Dyn.row (c gc : Nat) (U V A Z : Nat → R) (X : Nat → Nat → R) : Nat → R :=
  stressRow P.el.d P.el.d (P.el.volForm fabs X) (P.stressForm U V Z X) (gradForm P.el.d X) +
    contentRow P.el.d P.el.d P.el.d 0 (at0 P.basis) (P.el.volForm fabs X) (P.inertiaForm V A Z) +
    P.el.loadRow c gc Z

/-- What the constructor establishes: a residual without damping has zero Rayleigh coefficients. -/
def Dyn.DampedOk : Prop := P.damped = false → P.rayA = 0 ∧ P.rayB = 0

end Spec

/-! ## The loop -/

/-- Extents of the work views. -/
structure DViews.Ok (d nc : Nat) (w : DViews R) : Prop where
  g0 : w.grad.d0 = nc
  g1 : w.grad.d1 = d + 1
  g2 : w.grad.d2 = d
  v : w.vol.length = nc
  e0 : w.strain.d0 = nc
  e1 : w.strain.d1 = numVoigt d
  r0 : w.velgrad.d0 = nc
  r1 : w.velgrad.d1 = numVoigt d
  s0 : w.stress.d0 = nc
  s1 : w.stress.d1 = numVoigt d
  a0 : w.acc.d0 = nc
  a1 : w.acc.d1 = d
  u0 : w.vel.d0 = nc
  u1 : w.vel.d1 = d
  m0 : w.content.d0 = nc
  m1 : w.content.d1 = d

omit [Div R] in
theorem DViews.new_ok (d nc : Nat) : (DViews.new d nc : DViews R).Ok d nc :=
  ⟨rfl, rfl, rfl, List.length_replicate, rfl, rfl, rfl, rfl, rfl, rfl, rfl, rfl, rfl, rfl, rfl, rfl⟩

/-- Contents of the strain and stress views in finished cells, and that the strains of the others are
untouched. -/
structure DInv (P : Dyn R) (state vel control : V2 R) (config : V3 R) (nc : Nat) (D : Finset Nat)
    (w : DViews R) : Prop where
  ok : w.Ok P.el.d nc
  zero : ∀ c, c ∉ D → ∀ t, w.strain.e c t = 0 ∧ w.velgrad.e c t = 0
  stress : ∀ c ∈ D, ∀ t, t < numVoigt P.el.d →
    w.stress.e c t = P.stressForm (state.e c) (vel.e c) (control.e c) (config.e c) t

section Loop
variable {P : Dyn R} (hd : P.el.d = 1 ∨ P.el.d = 2 ∨ P.el.d = 3) {nc : Nat} {state vel acc control : V2 R}
  {config : V3 R} (hb : P.basis.length = P.el.d + 1)
  (hw : WsOk P.el.d P.el.d nc state control config) (hv0 : nc ≤ vel.d0) (hv1 : (P.el.d + 1) * P.el.d ≤ vel.d1)
  (ha0 : nc ≤ acc.d0) (ha1 : (P.el.d + 1) * P.el.d ≤ acc.d1)
  {T : V2 Nat} (hT0 : T.d0 = P.el.d) (hT1 : T.d1 = P.el.d)
  (hT : ∀ i j, i < P.el.d → j < P.el.d → T.e i j = voigtIndex P.el.d i j)
include hd hb hw ha0 ha1 hT0 hT1 hT

theorem plainCell_ok (hA : P.rayA = 0) (hB : P.rayB = 0) {D : Finset Nat} {c : Nat} (hc : c < nc) (hD : c ∉ D)
    {w : DViews R} (h : DInv P state vel control config nc D w) {out : V2 R} (ho0 : nc ≤ out.d0)
    (ho1 : (P.el.d + 1) * P.el.d ≤ out.d1) :
    (P.plainCell fabs T state acc control config c (w, out)).Sat fun s =>
      DInv P state vel control config nc (insert c D) s.1 ∧ s.2 = out.row c (out.e c +
        (stressRow P.el.d P.el.d (P.el.volForm fabs (config.e c))
          (P.stressForm (state.e c) (vel.e c) (control.e c) (config.e c)) (gradForm P.el.d (config.e c)) +
        contentRow P.el.d P.el.d P.el.d 0 (at0 P.basis) (P.el.volForm fabs (config.e c))
          (P.inertiaForm (vel.e c) (acc.e c) (control.e c)))) := by
  obtain ⟨g, v, e, r, s, a, u, m⟩ := w
  obtain ⟨⟨g0, g1, g2, hv, e0, e1, r0, r1, s0, s1, a0, a1, u0, u1, m0, m1⟩, hz, hst⟩ := h
  replace hv : v.length = nc := hv
  dsimp only at g0 g1 g2 e0 e1 r0 r1 s0 s1 a0 a1 u0 u1 m0 m1 hz hst
  obtain ⟨w0, w1, z0, z1, x0, x1, x2⟩ := hw
  have hlt : ∀ n i, n < P.el.d + 1 → i < P.el.d → P.el.d * n + i < (P.el.d + 1) * P.el.d := fun n i hn hi => by
    have := dof_lt (d := P.el.d) hn hi
    rw [Nat.mul_comm]; exact this
  have hG : ∀ n k, n < P.el.d + 1 → k < P.el.d → (g.cell c (fun n k => if n < P.el.d + 1 ∧ k < P.el.d then
      gradForm P.el.d (config.e c) n k else g.e c n k)).e c n k = gradForm P.el.d (config.e c) n k := by
    intro n k hn hk
    simp only [V3.cell, if_true]
    rw [if_pos ⟨hn, hk⟩]
  unfold Dyn.plainCell
  dsimp only
  rw [computeGradient_form fabs hd (by omega) x1 x2 (by omega) g1 g2 (by omega), Res.ok_bind]
  dsimp only
  rw [rd_at0 (by rw [List.length_set]; omega), Res.ok_bind, wr_eq (by rw [List.length_set]; omega), Res.ok_bind,
    strain_ok (g := V3.cell g c _) hd (by omega) e1 (by omega) w1 (by show c < g.d0; omega) g1 g2 le_rfl, Res.ok_bind,
    linearStress_ok (strain := V2.row e c _) (by omega) s1 (by show c < e.d0; omega) e1, Res.ok_bind,
    applyWeighting_ok (by omega) z1 (by show c < s.d0; omega) (by show _ ≤ s.d1; omega), Res.ok_bind]
  have hvol : at0 ((v.set c (fabs (detForm P.el.d (config.e c)))).set c
      (at0 (v.set c (fabs (detForm P.el.d (config.e c)))) c * P.el.cubWeight)) c = P.el.volForm fabs (config.e c) := by
    rw [at0_set (by rw [List.length_set]; omega), if_pos rfl, at0_set (by omega), if_pos rfl]; rfl
  have hE : ∀ t, t < numVoigt P.el.d → (e.row c fun t => if t < numVoigt P.el.d then
      (if t < P.el.d then 0 else e.e c t) + voigtStrain P.el.d (nodal P.el.d state c) ((g.cell c
        (fun n k => if n < P.el.d + 1 ∧ k < P.el.d then gradForm P.el.d (config.e c) n k else g.e c n k)).e c) t
      else e.e c t).e c t = P.el.strainForm (state.e c) (config.e c) t := by
    intro t ht
    simp only [V2.row, if_true]
    rw [if_pos ht, (hz c hD t).1, ite_self, zero_add]
    exact voigtStrain_congr hd (fun _ _ _ _ => rfl) hG
  rw [stressDivergence_row (g := V3.cell g c _) (stress := V2.row (V2.row s c _) c _) hd hT0 hT1 hT (by omega) ho1
    le_rfl (by show c < s.d0; omega) s1 (by show c < g.d0; omega) g1 g2 (by simp only [List.length_set]; omega)
    (σ := P.stressForm (state.e c) (vel.e c) (control.e c) (config.e c)) (G := gradForm P.el.d (config.e c)) ?σ
    hG hvol, Res.ok_bind]
  case σ =>
    intro t ht
    simp only [V2.row, if_true]
    rw [if_pos ht, if_pos ht]
    unfold Dyn.stressForm Dyn.solidStress
    congr 1
    refine sum_congr rfl fun q hq => ?_
    have := hE q (mem_range.1 hq)
    simp only [V2.row, if_true] at this
    rw [this, hB, mul_zero, add_zero]
  rw [interpolateN_ok (by omega) a1.ge hb.ge (by omega) (fun n i hn hi => by have := hlt n i hn hi; omega),
    Res.ok_bind, inertia_ok (acc := V2.row a c _) (by omega) m1.ge (by show c < a.d0; omega) a1.ge, Res.ok_bind,
    applyWeighting_ok (y := V2.row m c _) (by omega) z1 (by show c < m.d0; omega) m1.ge, Res.ok_bind,
    projectN_row (state := V2.row (V2.row m c _) c _) (out := V2.row out c _) (m := P.el.d) (by show c < out.d0; omega) hb.ge
      (by simp only [List.length_set]; omega) (by show c < m.d0; omega) m1
      (fun n i hn hi => by show _ < out.d1; have := hlt n i hn hi; omega)
      (f := P.inertiaForm (vel.e c) (acc.e c) (control.e c)) ?hcont hvol]
  rw [Res.ok_bind, Res.pure_eq, Res.sat_ok]
  case hcont =>
    intro i hi
    simp only [V2.row, if_true]
    rw [if_pos hi, if_pos hi, if_pos hi]
    unfold Dyn.inertiaForm Dyn.point
    rw [hA, mul_zero, add_zero]
    rfl
  refine ⟨⟨⟨g0, g1, g2, ?_, e0, e1, r0, r1, s0, s1, a0, a1, u0, u1, m0, m1⟩, ?_, ?_⟩, ?_⟩
  · simp only [List.length_set]; exact hv
  · intro q hq t
    have hne : q ≠ c := by rintro rfl; exact hq (mem_insert_self _ _)
    have := hz q (fun h => hq (mem_insert_of_mem h)) t
    exact ⟨by simp only [V2.row, hne, if_false]; exact this.1, this.2⟩
  · intro q hq t ht
    by_cases hne : q = c
    · subst hne
      simp only [V2.row, if_true]
      rw [if_pos ht, if_pos ht]
      unfold Dyn.stressForm Dyn.solidStress
      congr 1
      refine sum_congr rfl fun p hp => ?_
      have := hE p (mem_range.1 hp)
      simp only [V2.row, if_true] at this
      rw [this, hB, mul_zero, add_zero]
    · simp only [V2.row, hne, if_false]
      exact hst q ((mem_insert.1 hq).resolve_left hne) t ht
  · dsimp only
    rw [V2.row_row]
    simp only [V2.row, if_true, add_assoc]

include hv0 hv1 in
theorem dampedCell_ok {D : Finset Nat} {c : Nat} (hc : c < nc) (hD : c ∉ D)
    {w : DViews R} (h : DInv P state vel control config nc D w) {out : V2 R} (ho0 : nc ≤ out.d0)
    (ho1 : (P.el.d + 1) * P.el.d ≤ out.d1) :
    (P.dampedCell fabs T state vel acc control config c (w, out)).Sat fun s =>
      DInv P state vel control config nc (insert c D) s.1 ∧ s.2 = out.row c (out.e c +
        (stressRow P.el.d P.el.d (P.el.volForm fabs (config.e c))
          (P.stressForm (state.e c) (vel.e c) (control.e c) (config.e c)) (gradForm P.el.d (config.e c)) +
        contentRow P.el.d P.el.d P.el.d 0 (at0 P.basis) (P.el.volForm fabs (config.e c))
          (P.inertiaForm (vel.e c) (acc.e c) (control.e c)))) := by
  obtain ⟨g, v, e, r, s, a, u, m⟩ := w
  obtain ⟨⟨g0, g1, g2, hv, e0, e1, r0, r1, s0, s1, a0, a1, u0, u1, m0, m1⟩, hz, hst⟩ := h
  replace hv : v.length = nc := hv
  dsimp only at g0 g1 g2 e0 e1 r0 r1 s0 s1 a0 a1 u0 u1 m0 m1 hz hst
  obtain ⟨w0, w1, z0, z1, x0, x1, x2⟩ := hw
  have hlt : ∀ n i, n < P.el.d + 1 → i < P.el.d → P.el.d * n + i < (P.el.d + 1) * P.el.d := fun n i hn hi => by
    have := dof_lt (d := P.el.d) hn hi
    rw [Nat.mul_comm]; exact this
  have hG : ∀ n k, n < P.el.d + 1 → k < P.el.d → (g.cell c (fun n k => if n < P.el.d + 1 ∧ k < P.el.d then
      gradForm P.el.d (config.e c) n k else g.e c n k)).e c n k = gradForm P.el.d (config.e c) n k := by
    intro n k hn hk
    simp only [V3.cell, if_true]
    rw [if_pos ⟨hn, hk⟩]
  unfold Dyn.dampedCell
  dsimp only
  rw [computeGradient_form fabs hd (by omega) x1 x2 (by omega) g1 g2 (by omega), Res.ok_bind]
  dsimp only
  rw [rd_at0 (by rw [List.length_set]; omega), Res.ok_bind, wr_eq (by rw [List.length_set]; omega), Res.ok_bind,
    strain_ok (g := V3.cell g c _) hd (by omega) e1 (by omega) w1 (by show c < g.d0; omega) g1 g2 le_rfl, Res.ok_bind,
    strain_ok (s := r) (g := V3.cell g c _) hd (by omega) r1 (by omega) hv1 (by show c < g.d0; omega) g1 g2 le_rfl, Res.ok_bind,
    dampedStress_ok (strain := V2.row e c _) (velgrad := V2.row r c _) (by omega) s1 (by show c < e.d0; omega) e1
      (by show c < r.d0; omega) r1, Res.ok_bind,
    applyWeighting_ok (by omega) z1 (by show c < s.d0; omega) (by show _ ≤ s.d1; omega), Res.ok_bind]
  have hvol : at0 ((v.set c (fabs (detForm P.el.d (config.e c)))).set c
      (at0 (v.set c (fabs (detForm P.el.d (config.e c)))) c * P.el.cubWeight)) c = P.el.volForm fabs (config.e c) := by
    rw [at0_set (by rw [List.length_set]; omega), if_pos rfl, at0_set (by omega), if_pos rfl]; rfl
  have hE : ∀ t, t < numVoigt P.el.d → (e.row c fun t => if t < numVoigt P.el.d then
      (if t < P.el.d then 0 else e.e c t) + voigtStrain P.el.d (nodal P.el.d state c) ((g.cell c
        (fun n k => if n < P.el.d + 1 ∧ k < P.el.d then gradForm P.el.d (config.e c) n k else g.e c n k)).e c) t
      else e.e c t).e c t = P.el.strainForm (state.e c) (config.e c) t := by
    intro t ht
    simp only [V2.row, if_true]
    rw [if_pos ht, (hz c hD t).1, ite_self, zero_add]
    exact voigtStrain_congr hd (fun _ _ _ _ => rfl) hG
  have hR : ∀ t, t < numVoigt P.el.d → (r.row c fun t => if t < numVoigt P.el.d then
      (if t < P.el.d then 0 else r.e c t) + voigtStrain P.el.d (nodal P.el.d vel c) ((g.cell c
        (fun n k => if n < P.el.d + 1 ∧ k < P.el.d then gradForm P.el.d (config.e c) n k else g.e c n k)).e c) t
      else r.e c t).e c t = P.el.strainForm (vel.e c) (config.e c) t := by
    intro t ht
    simp only [V2.row, if_true]
    rw [if_pos ht, (hz c hD t).2, ite_self, zero_add]
    exact voigtStrain_congr hd (fun _ _ _ _ => rfl) hG
  rw [stressDivergence_row (g := V3.cell g c _) (stress := V2.row (V2.row s c _) c _) hd hT0 hT1 hT (by omega) ho1
    le_rfl (by show c < s.d0; omega) s1 (by show c < g.d0; omega) g1 g2 (by simp only [List.length_set]; omega)
    (σ := P.stressForm (state.e c) (vel.e c) (control.e c) (config.e c)) (G := gradForm P.el.d (config.e c)) ?σ
    hG hvol, Res.ok_bind]
  case σ =>
    intro t ht
    simp only [V2.row, if_true]
    rw [if_pos ht, if_pos ht]
    unfold Dyn.stressForm Dyn.solidStress
    congr 1
    refine sum_congr rfl fun q hq => ?_
    have h1 := hE q (mem_range.1 hq)
    have h2 := hR q (mem_range.1 hq)
    simp only [V2.row, if_true] at h1 h2
    rw [h1, h2]
  rw [interpolateN_ok (by omega) a1.ge hb.ge (by omega) (fun n i hn hi => by have := hlt n i hn hi; omega),
    Res.ok_bind, interpolateN_ok (out := u) (by omega) u1.ge hb.ge (by omega) (fun n i hn hi => by have := hlt n i hn hi; omega),
    Res.ok_bind, dampedInertia_ok (acc := V2.row a c _) (vel := V2.row u c _) (by omega) m1.ge (by show c < a.d0; omega) a1.ge
      (by show c < u.d0; omega) u1.ge, Res.ok_bind,
    applyWeighting_ok (y := V2.row m c _) (by omega) z1 (by show c < m.d0; omega) m1.ge, Res.ok_bind,
    projectN_row (state := V2.row (V2.row m c _) c _) (out := V2.row out c _) (m := P.el.d) (by show c < out.d0; omega) hb.ge
      (by simp only [List.length_set]; omega) (by show c < m.d0; omega) m1
      (fun n i hn hi => by show _ < out.d1; have := hlt n i hn hi; omega)
      (f := P.inertiaForm (vel.e c) (acc.e c) (control.e c)) ?hcont hvol]
  rw [Res.ok_bind, Res.pure_eq, Res.sat_ok]
  case hcont =>
    intro i hi
    simp only [V2.row, if_true]
    rw [if_pos hi, if_pos hi, if_pos hi, if_pos hi]
    rfl
  refine ⟨⟨⟨g0, g1, g2, ?_, e0, e1, r0, r1, s0, s1, a0, a1, u0, u1, m0, m1⟩, ?_, ?_⟩, ?_⟩
  · simp only [List.length_set]; exact hv
  · intro q hq t
    have hne : q ≠ c := by rintro rfl; exact hq (mem_insert_self _ _)
    have := hz q (fun h => hq (mem_insert_of_mem h)) t
    exact ⟨by simp only [V2.row, hne, if_false]; exact this.1, by simp only [V2.row, hne, if_false]; exact this.2⟩
  · intro q hq t ht
    by_cases hne : q = c
    · subst hne
      simp only [V2.row, if_true]
      rw [if_pos ht, if_pos ht]
      unfold Dyn.stressForm Dyn.solidStress
      congr 1
      refine sum_congr rfl fun p hp => ?_
      have h1 := hE p (mem_range.1 hp)
      have h2 := hR p (mem_range.1 hp)
      simp only [V2.row, if_true] at h1 h2
      rw [h1, h2]
    · simp only [V2.row, hne, if_false]
      exact hst q ((mem_insert.1 hq).resolve_left hne) t ht
  · dsimp only
    rw [V2.row_row]
    simp only [V2.row, if_true, add_assoc]

omit hb hw ha0 ha1 hT0 hT1 hT hd in
theorem DInv.new : DInv P state vel control config nc ∅ (DViews.new P.el.d nc) :=
  ⟨DViews.new_ok _ _, fun _ _ _ => ⟨rfl, rfl⟩, by simp⟩

omit hT0 hT1 hT in
include hv0 hv1 in
theorem loop_ok (hdm : P.DampedOk) (init : Nat → Nat → Nat) {order : List Nat} (hs : IsSchedule order nc)
    {result : V2 R} (hr0 : nc ≤ result.d0) (hr1 : (P.el.d + 1) * P.el.d ≤ result.d1) :
    (P.loop fabs init order nc state vel acc control config result).Sat fun s =>
      DInv P state vel control config nc (range nc) s.1 ∧ s.2 = addRows result nc fun c =>
        stressRow P.el.d P.el.d (P.el.volForm fabs (config.e c))
          (P.stressForm (state.e c) (vel.e c) (control.e c) (config.e c)) (gradForm P.el.d (config.e c)) +
        contentRow P.el.d P.el.d P.el.d 0 (at0 P.basis) (P.el.volForm fabs (config.e c))
          (P.inertiaForm (vel.e c) (acc.e c) (control.e c)) := by
  obtain ⟨T, hTr, hT0, hT1, hT⟩ := voigtTable_ok hd init
  unfold Dyn.loop
  rw [hTr, Res.ok_bind]
  refine rowLoopD hs (I := DInv P state vel control config nc) DInv.new _ fun D c w out hc hD hI h0 h1 => ?_
  by_cases hdp : P.damped
  · rw [if_pos hdp]
    exact dampedCell_ok fabs hd hb hw hv0 hv1 ha0 ha1 hT0 hT1 hT hc hD hI (by omega) (by omega)
  · rw [if_neg hdp]
    have := hdm (by simpa using hdp)
    exact plainCell_ok fabs hd hb hw ha0 ha1 hT0 hT1 hT this.1 this.2 hc hD hI (by omega) (by omega)

end Loop

/-- **Closed form of `evaluate`**: the result, and the stress handed to the output. -/
theorem evaluate_ok {P : Dyn R} (hd : P.el.d = 1 ∨ P.el.d = 2 ∨ P.el.d = 3) {state vel acc control : V2 R}
    {config : V3 R} (hb : P.basis.length = P.el.d + 1) (hdm : P.DampedOk) {cells : List Nat}
    (hw : WsOk P.el.d P.el.d cells.length state control config) (hv0 : cells.length ≤ vel.d0)
    (hv1 : (P.el.d + 1) * P.el.d ≤ vel.d1) (ha0 : cells.length ≤ acc.d0) (ha1 : (P.el.d + 1) * P.el.d ≤ acc.d1)
    (hL : ∀ L ∈ P.el.bodyLoads, L.Ok P.el.d P.el.d cells) {sched : Nat → List Nat}
    (hs : ∀ k, IsSchedule (sched k) cells.length) (init : Nat → Nat → Nat) {result : V2 R}
    (hr0 : cells.length ≤ result.d0) (hr1 : (P.el.d + 1) * P.el.d ≤ result.d1) :
    ∃ w : DViews R, P.evaluate fabs init sched cells state vel acc control config result =
      .ok (addRows result cells.length fun c =>
        P.row fabs c (atN cells c) (state.e c) (vel.e c) (acc.e c) (control.e c) (config.e c), P.plots w) ∧
      w.stress.d0 = cells.length ∧ w.stress.d1 = numVoigt P.el.d ∧
      ∀ c t, c < cells.length → t < numVoigt P.el.d →
        w.stress.e c t = P.stressForm (state.e c) (vel.e c) (control.e c) (config.e c) t := by
  obtain ⟨⟨w, out⟩, hr, hI, ho⟩ := loop_ok fabs hd hb hw hv0 hv1 ha0 ha1 hdm init (hs 0) hr0 hr1
  dsimp only at hI ho
  refine ⟨w, ?_, hI.ok.s0, hI.ok.s1, fun c t hc ht => hI.stress c (mem_range.2 hc) t ht⟩
  unfold Dyn.evaluate
  rw [hr, Res.ok_bind]
  dsimp only
  obtain ⟨k', hk⟩ := bodyLoads_ok hs hw.z0 hw.z1 (-1) P.el.bodyLoads out 1 hL (by rw [ho]; exact hr0)
    (by rw [ho]; exact hr1)
  rw [hk, Res.ok_bind, ho]
  dsimp only
  rw [Res.pure_eq, addRows_addRows]
  rfl

end Plato.Dyn
