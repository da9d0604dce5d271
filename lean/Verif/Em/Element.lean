import Verif.Em.Model
import Verif.Tm.Element
import Verif.Crit.Energy

/-!
# The element of electromechanics: closed forms of the functions `evaluate`
-/

namespace Plato.Em
open Finset Plato Plato.Mech Plato.Thermal Plato.Dyn
open Plato.Tm (fluxRow fluxDivergence_form)

variable {R : Type} [CommRing R]

/-! ## Specification -/

section Spec
variable (P : Em R)

/-- Strain of the displacements. -/
def Em.strainForm [Div R] (U : Nat → R) (X : Nat → Nat → R) (t : Nat) : R :=
  voigtStrain P.d (fun n i => U (n * (P.d + 1) + i)) (gradForm P.d X) t

/-- Electric field: the negative gradient of the potential. -/
def Em.fieldForm [Div R] (U : Nat → R) (X : Nat → Nat → R) (k : Nat) : R :=
  -scalarField P.d (fun n => U (n * (P.d + 1) + P.d)) (gradForm P.d X) k

/-- Volume of a cell. -/
def Em.volForm (fabs : R → R) (X : Nat → Nat → R) : R := fabs (detForm P.d X) * P.cubWeight

/-- Stress of a strain and an electric field. -/
def EmLaw.stressOf (L : EmLaw R) (d : Nat) (ε E : Nat → R) (t : Nat) : R :=
  ∑ s ∈ range (numVoigt d), ε s * L.stiff t s - ∑ j ∈ range d, L.alpha * E j * L.piezo j t

/-- Electric displacement of a strain and an electric field. -/
def EmLaw.dispOf (L : EmLaw R) (d : Nat) (ε E : Nat → R) (k : Nat) : R :=
  ∑ j ∈ range d, L.alpha * L.alpha * E j * L.perm k j + ∑ s ∈ range (numVoigt d), L.alpha * ε s * L.piezo k s

/-- Stress and electric displacement of the solid material. -/
def Em.solidStress [Div R] (U : Nat → R) (X : Nat → Nat → R) (t : Nat) : R :=
  P.law.stressOf P.d (P.strainForm U X) (P.fieldForm U X) t

def Em.solidDisp [Div R] (U : Nat → R) (X : Nat → Nat → R) (k : Nat) : R :=
  P.law.dispOf P.d (P.strainForm U X) (P.fieldForm U X) k

/-- Penalised stress and electric displacement. -/
def Em.stressForm [Div R] (U Z : Nat → R) (X : Nat → Nat → R) (t : Nat) : R :=
  P.solidStress U X t * P.pen (meanDensity (P.d + 1) Z)

def Em.dispForm [Div R] (U Z : Nat → R) (X : Nat → Nat → R) (k : Nat) : R :=
  P.solidDisp U X k * P.pen (meanDensity (P.d + 1) Z)

/-- What stress and electric displacement add to the row of a cell. -/
def Em.solidRow [Div R] (fabs : R → R) (U Z : Nat → R) (X : Nat → Nat → R) : Nat → R :=
  stressRow P.d (P.d + 1) (P.volForm fabs X) (P.stressForm U Z X) (gradForm P.d X) +
    fluxRow P.d (P.d + 1) P.d (P.volForm fabs X) (P.dispForm U Z X) (gradForm P.d X)

/-- All body loads. -/
def Em.loadRow [Div R] (c gc : Nat) (Z : Nat → R) : Nat → R :=
  (P.bodyLoads.map fun L => L.row P.d (P.d + 1) c gc Z (-1)).sum

/-- Row of the residual. -/
def Em.staticRow [Div R] (fabs : R → R) (c gc : Nat) (U Z : Nat → R) (X : Nat → Nat → R) : Nat → R :=
  P.solidRow fabs U Z X + P.loadRow c gc Z

/-- Energy of a cell. -/
def Em.energyForm [Div R] (fabs : R → R) (U Z : Nat → R) (X : Nat → Nat → R) : R :=
  1 * (∑ t ∈ range (numVoigt P.d), P.stressForm U Z X t * P.strainForm U X t) * P.volForm fabs X +
    -1 * (∑ k ∈ range P.d, P.dispForm U Z X k * P.fieldForm U X k) * P.volForm fabs X

end Spec

/-! ## Functors -/

theorem emKinematics_ok {d c : Nat} (hd : d = 1 ∨ d = 2 ∨ d = 3) {e tg state : V2 R} {g : V3 R}
    (he : c < e.d0) (he1 : e.d1 = numVoigt d) (ht : c < tg.d0) (ht1 : tg.d1 = d)
    (hs : c < state.d0) (hs1 : (d + 1) * (d + 1) ≤ state.d1) (hg : c < g.d0) (hg1 : g.d1 = d + 1) (hg2 : g.d2 = d) :
    emKinematics d (d + 1) c e tg state g = .ok (e.row c fun t => if t < numVoigt d then
        (if t < d then 0 else e.e c t) + voigtStrain d (nodal (d + 1) state c) (g.e c) t else e.e c t,
      tg.row c fun k => if k < d then
        -scalarField d (fun n => state.e c (n * (d + 1) + d)) (g.e c) k else tg.e c k) := by
  unfold emKinematics scalarField
  rw [strain_ok hd he he1 hs hs1 hg hg1 hg2 (by omega), Res.ok_bind]
  conv_lhs => rw [← V2.row_self tg c]
  rw [forRange_row (fun k _ => -∑ n ∈ range (d + 1), state.e c (n * (d + 1) + d) * g.e c n k)]
  · rw [Res.ok_bind]; rfl
  intro k f hk
  rw [vwr2_row ht (by omega), Res.ok_bind,
    forRange_addrow (fun n => Pi.single k (-(state.e c (n * (d + 1) + d) * g.e c n k))) _ (by
      intro n f hn
      have := dof_lt (d := d) (ndof := d + 1) (i := d) hn (by omega)
      rw [vrd2_ok hs (by omega), Res.ok_bind, vrd3_ok hg (by omega) (by omega), Res.ok_bind]
      exact accum2_row ht (by omega))]
  congr 2
  funext r
  by_cases h : r = k
  · subst h; simp
  · simp [h]

theorem emKinetics_ok {d c : Nat} {L : EmLaw R} {σ q e f : V2 R}
    (hσ : c < σ.d0) (hσ1 : σ.d1 = numVoigt d) (hq : c < q.d0) (hq1 : q.d1 = d) (he : c < e.d0)
    (he1 : e.d1 = numVoigt d) (hf : c < f.d0) (hf1 : f.d1 = d) :
    emKinetics d L c σ q e f = .ok (σ.row c fun t => if t < numVoigt d then L.stressOf d (e.e c) (f.e c) t else σ.e c t,
      q.row c fun k => if k < d then L.dispOf d (e.e c) (f.e c) k else q.e c k) := by
  unfold emKinetics
  have h1 : forRange 0 (numVoigt d) σ (fun i stress => do
      let stress ← vwr2 stress c i 0
      let stress ← forRange 0 (numVoigt d) stress fun j stress => do
        let e ← vrd2 e c j
        accum2 stress c i (e * L.stiff i j)
      forRange 0 d stress fun j stress => do
        let f ← vrd2 f c j
        accum2 stress c i (-(L.alpha * f * L.piezo j i))) =
      .ok (σ.row c fun t => if t < numVoigt d then L.stressOf d (e.e c) (f.e c) t else σ.e c t) := by
    conv_lhs => rw [← V2.row_self σ c]
    rw [forRange_row (fun t _ => L.stressOf d (e.e c) (f.e c) t)]
    intro t g ht
    rw [vwr2_row hσ (by omega), Res.ok_bind,
      forRange_addrow (fun s => Pi.single t (e.e c s * L.stiff t s)) _ (by
        intro s f hs
        rw [vrd2_ok he (by omega), Res.ok_bind]
        exact accum2_row hσ (by omega)), Res.ok_bind,
      forRange_addrow (fun j => Pi.single t (-(L.alpha * f.e c j * L.piezo j t))) _ (by
        intro j g hj
        rw [vrd2_ok hf (by omega), Res.ok_bind]
        exact accum2_row hσ (by omega))]
    congr 2
    funext r
    by_cases h : r = t
    · subst h; simp [EmLaw.stressOf, sub_eq_add_neg]
    · simp [h]
  have h2 : forRange 0 d q (fun i edisp => do
      let edisp ← vwr2 edisp c i 0
      let edisp ← forRange 0 d edisp fun j edisp => do
        let f ← vrd2 f c j
        accum2 edisp c i (L.alpha * L.alpha * f * L.perm i j)
      forRange 0 (numVoigt d) edisp fun j edisp => do
        let e ← vrd2 e c j
        accum2 edisp c i (L.alpha * e * L.piezo i j)) =
      .ok (q.row c fun k => if k < d then L.dispOf d (e.e c) (f.e c) k else q.e c k) := by
    conv_lhs => rw [← V2.row_self q c]
    rw [forRange_row (fun k _ => L.dispOf d (e.e c) (f.e c) k)]
    intro k g hk
    rw [vwr2_row hq (by omega), Res.ok_bind,
      forRange_addrow (fun j => Pi.single k (L.alpha * L.alpha * f.e c j * L.perm k j)) _ (by
        intro j g hj
        rw [vrd2_ok hf (by omega), Res.ok_bind]
        exact accum2_row hq (by omega)), Res.ok_bind,
      forRange_addrow (fun s => Pi.single k (L.alpha * e.e c s * L.piezo k s)) _ (by
        intro s g hs
        rw [vrd2_ok he (by omega), Res.ok_bind]
        exact accum2_row hq (by omega))]
    congr 2
    funext r
    by_cases h : r = k
    · subst h; simp [EmLaw.dispOf]
    · simp [h]
  rw [h1, Res.ok_bind, h2, Res.ok_bind]
  rfl

/-! ## The loops -/

/-- Extents of the views. -/
structure EViews.Ok (d nc : Nat) (w : EViews R) : Prop where
  g0 : w.grad.d0 = nc
  g1 : w.grad.d1 = d + 1
  g2 : w.grad.d2 = d
  v : w.vol.length = nc
  e0 : w.strain.d0 = nc
  e1 : w.strain.d1 = numVoigt d
  t0 : w.efield.d0 = nc
  t1 : w.efield.d1 = d
  s0 : w.stress.d0 = nc
  s1 : w.stress.d1 = numVoigt d
  f0 : w.edisp.d0 = nc
  f1 : w.edisp.d1 = d

theorem EViews.new_ok (d nc : Nat) : (EViews.new d nc : EViews R).Ok d nc :=
  ⟨rfl, rfl, rfl, List.length_replicate, rfl, rfl, rfl, rfl, rfl, rfl, rfl, rfl⟩

variable [Div R] (fabs : R → R)

/-- Kinematics of a cell in the views. -/
structure Kin (P : Em R) (U : Nat → R) (X : Nat → Nat → R) (c : Nat) (w : EViews R) : Prop where
  grad : ∀ n k, n < P.d + 1 → k < P.d → w.grad.e c n k = gradForm P.d X n k
  vol : at0 w.vol c = P.volForm fabs X
  strain : ∀ t, t < numVoigt P.d → w.strain.e c t = P.strainForm U X t
  efield : ∀ k, k < P.d → w.efield.e c k = P.fieldForm U X k

/-- Stress and electric displacement of a cell in the views. -/
structure Kinet (P : Em R) (σ q : Nat → R) (c : Nat) (w : EViews R) : Prop where
  stress : ∀ t, t < numVoigt P.d → w.stress.e c t = σ t
  edisp : ∀ k, k < P.d → w.edisp.e c k = q k

omit [CommRing R] [Div R] in
/-- The views agree at a cell. -/
structure Same (r : Nat) (w w' : EViews R) [Zero R] : Prop where
  grad : w'.grad.e r = w.grad.e r
  vol : at0 w'.vol r = at0 w.vol r
  strain : w'.strain.e r = w.strain.e r
  efield : w'.efield.e r = w.efield.e r
  stress : w'.stress.e r = w.stress.e r
  edisp : w'.edisp.e r = w.edisp.e r

omit [CommRing R] [Div R] in
theorem Same.trans [Zero R] {r : Nat} {w w' w'' : EViews R} (a : Same r w w') (b : Same r w' w'') : Same r w w'' :=
  ⟨b.grad.trans a.grad, b.vol.trans a.vol, b.strain.trans a.strain, b.efield.trans a.efield,
    b.stress.trans a.stress, b.edisp.trans a.edisp⟩

theorem Kin.same {P : Em R} {U : Nat → R} {X : Nat → Nat → R} {r : Nat} {w w' : EViews R}
    (h : Kin fabs P U X r w) (s : Same r w w') : Kin fabs P U X r w' :=
  ⟨by rw [s.grad]; exact h.grad, by rw [s.vol]; exact h.vol, by rw [s.strain]; exact h.strain,
    by rw [s.efield]; exact h.efield⟩

omit [Div R] in
theorem Kinet.same {P : Em R} {σ q : Nat → R} {r : Nat} {w w' : EViews R}
    (h : Kinet P σ q r w) (s : Same r w w') : Kinet P σ q r w' :=
  ⟨by rw [s.stress]; exact h.stress, by rw [s.edisp]; exact h.edisp⟩

section Cell
variable {P : Em R} (hd : P.d = 1 ∨ P.d = 2 ∨ P.d = 3) {nc : Nat} {state control : V2 R} {config : V3 R}
  (hw : WsOk P.d (P.d + 1) nc state control config)
include hd hw

theorem front_ok {c : Nat} (hc : c < nc) {w : EViews R} (h : w.Ok P.d nc) (h0 : ∀ t, w.strain.e c t = 0) :
    (P.front fabs state config c w).Sat fun w' => w'.Ok P.d nc ∧ Kin fabs P (state.e c) (config.e c) c w' ∧
      Kinet P (P.solidStress (state.e c) (config.e c)) (P.solidDisp (state.e c) (config.e c)) c w' ∧
      ∀ r, r ≠ c → Same r w w' := by
  obtain ⟨g, v, e, tg, σ, q⟩ := w
  obtain ⟨g0, g1, g2, hv, e0, e1, t0, t1, s0, s1, f0, f1⟩ := h
  replace hv : v.length = nc := hv
  dsimp only at g0 g1 g2 e0 e1 t0 t1 s0 s1 f0 f1 h0
  obtain ⟨a0, a1, b0, b1, x0, x1, x2⟩ := hw
  have hG : ∀ n k, n < P.d + 1 → k < P.d → (g.cell c (fun n k => if n < P.d + 1 ∧ k < P.d then
      gradForm P.d (config.e c) n k else g.e c n k)).e c n k = gradForm P.d (config.e c) n k := by
    intro n k hn hk
    simp only [V3.cell, if_true]
    rw [if_pos ⟨hn, hk⟩]
  unfold Em.front
  dsimp only
  rw [computeGradient_form fabs hd (by omega) x1 x2 (by omega) g1 g2 (by omega), Res.ok_bind]
  dsimp only
  rw [rd_at0 (by rw [List.length_set]; omega), Res.ok_bind, wr_eq (by rw [List.length_set]; omega), Res.ok_bind,
    emKinematics_ok (g := V3.cell g c _) hd (by omega) e1 (by omega) t1 (by omega) a1 (by show c < g.d0; omega) g1 g2,
    Res.ok_bind]
  dsimp only
  rw [emKinetics_ok (e := V2.row e c _) (f := V2.row tg c _) (by omega) s1 (by omega) f1 (by show c < e.d0; omega)
      e1 (by show c < tg.d0; omega) t1, Res.ok_bind]
  dsimp only
  rw [Res.pure_eq, Res.sat_ok]
  have hE : ∀ t, t < numVoigt P.d → (e.row c fun t => if t < numVoigt P.d then
      (if t < P.d then 0 else e.e c t) + voigtStrain P.d (nodal (P.d + 1) state c) ((g.cell c
        (fun n k => if n < P.d + 1 ∧ k < P.d then gradForm P.d (config.e c) n k else g.e c n k)).e c) t
      else e.e c t).e c t = P.strainForm (state.e c) (config.e c) t := by
    intro t ht
    simp only [V2.row, if_true]
    rw [if_pos ht, h0 t, ite_self, zero_add]
    exact voigtStrain_congr hd (fun _ _ _ _ => rfl) hG
  have hTG : ∀ k, k < P.d → (tg.row c fun k => if k < P.d then
      -scalarField P.d (fun n => state.e c (n * (P.d + 1) + P.d)) ((g.cell c
        (fun n k => if n < P.d + 1 ∧ k < P.d then gradForm P.d (config.e c) n k else g.e c n k)).e c) k
      else tg.e c k).e c k = P.fieldForm (state.e c) (config.e c) k := by
    intro k hk
    simp only [V2.row, if_true]
    rw [if_pos hk]
    exact congrArg _ (scalarField_congr (fun _ _ => rfl) fun n hn => hG n k hn hk)
  refine ⟨⟨g0, g1, g2, ?_, e0, e1, t0, t1, s0, s1, f0, f1⟩, ⟨hG, ?_, hE, hTG⟩, ⟨?_, ?_⟩, ?_⟩
  · simp only [List.length_set]; exact hv
  · rw [at0_set (by rw [List.length_set]; omega), if_pos rfl, at0_set (by omega), if_pos rfl]; rfl
  · intro t ht
    dsimp only
    conv_lhs => rw [V2.row]
    dsimp only
    rw [if_pos rfl, if_pos ht]
    unfold Em.solidStress EmLaw.stressOf
    congr 1
    · exact sum_congr rfl fun s hs => by rw [hE s (mem_range.1 hs)]
    · exact sum_congr rfl fun j hj => by rw [hTG j (mem_range.1 hj)]
  · intro k hk
    dsimp only
    conv_lhs => rw [V2.row]
    dsimp only
    rw [if_pos rfl, if_pos hk]
    unfold Em.solidDisp EmLaw.dispOf
    congr 1
    · exact sum_congr rfl fun j hj => by rw [hTG j (mem_range.1 hj)]
    · exact sum_congr rfl fun s hs => by rw [hE s (mem_range.1 hs)]
  · intro r hr
    refine ⟨?_, ?_, ?_, ?_, ?_, ?_⟩
    · simp only [V3.cell, hr, if_false]
    · dsimp only
      rw [at0_set (by rw [List.length_set]; omega), if_neg hr, at0_set (by omega), if_neg hr]
    · simp only [V2.row, hr, if_false]
    · simp only [V2.row, hr, if_false]
    · simp only [V2.row, hr, if_false]
    · simp only [V2.row, hr, if_false]

theorem weight_ok {c : Nat} (hc : c < nc) {w : EViews R} (h : w.Ok P.d nc)
    (hk : Kin fabs P (state.e c) (config.e c) c w)
    (hq : Kinet P (P.solidStress (state.e c) (config.e c)) (P.solidDisp (state.e c) (config.e c)) c w) :
    (P.weight control c w).Sat fun w' => w'.Ok P.d nc ∧ Kin fabs P (state.e c) (config.e c) c w' ∧
      Kinet P (P.stressForm (state.e c) (control.e c) (config.e c))
        (P.dispForm (state.e c) (control.e c) (config.e c)) c w' ∧ ∀ r, r ≠ c → Same r w w' := by
  obtain ⟨g, v, e, tg, σ, q⟩ := w
  obtain ⟨g0, g1, g2, hv, e0, e1, t0, t1, s0, s1, f0, f1⟩ := h
  replace hv : v.length = nc := hv
  dsimp only at g0 g1 g2 e0 e1 t0 t1 s0 s1 f0 f1
  obtain ⟨a0, a1, b0, b1, x0, x1, x2⟩ := hw
  unfold Em.weight
  dsimp only
  rw [applyWeighting_ok (by omega) b1 (by omega) (by omega), Res.ok_bind,
    applyWeighting_ok (by omega) b1 (by omega) (by omega), Res.ok_bind, Res.pure_eq, Res.sat_ok]
  refine ⟨⟨g0, g1, g2, hv, e0, e1, t0, t1, s0, s1, f0, f1⟩, ⟨hk.grad, hk.vol, hk.strain, hk.efield⟩, ⟨?_, ?_⟩,
    fun r hr => ⟨rfl, rfl, rfl, rfl, ?_, ?_⟩⟩
  · intro t ht
    simp only [V2.row, if_true]
    rw [if_pos ht, hq.stress t ht]
    rfl
  · intro k hk
    simp only [V2.row, if_true]
    rw [if_pos hk, hq.edisp k hk]
    rfl
  · simp only [V2.row, hr, if_false]
  · simp only [V2.row, hr, if_false]

theorem back_ok {T : V2 Nat} (hT0 : T.d0 = P.d) (hT1 : T.d1 = P.d)
    (hT : ∀ i j, i < P.d → j < P.d → T.e i j = voigtIndex P.d i j) {c : Nat} (hc : c < nc) {w : EViews R}
    (h : w.Ok P.d nc) (hk : Kin fabs P (state.e c) (config.e c) c w)
    (hq : Kinet P (P.solidStress (state.e c) (config.e c)) (P.solidDisp (state.e c) (config.e c)) c w)
    {out : V2 R} (ho0 : nc ≤ out.d0) (ho1 : (P.d + 1) * (P.d + 1) ≤ out.d1) :
    (P.back T control c (w, out)).Sat fun s => s.1.Ok P.d nc ∧
      Kin fabs P (state.e c) (config.e c) c s.1 ∧
      Kinet P (P.stressForm (state.e c) (control.e c) (config.e c))
        (P.dispForm (state.e c) (control.e c) (config.e c)) c s.1 ∧
      (∀ r, r ≠ c → Same r w s.1) ∧
      s.2 = out.row c (out.e c + P.solidRow fabs (state.e c) (control.e c) (config.e c)) := by
  unfold Em.back
  dsimp only
  refine Res.Sat.bind (weight_ok fabs hd hw hc h hk hq) ?_
  rintro w' ⟨k1, k2, k3, k4⟩
  have g0 := k1.g0
  have v0 := k1.v
  have s0 := k1.s0
  have f0 := k1.f0
  rw [stressDivergence_row hd hT0 hT1 hT (by omega) ho1 (by omega) (by omega) k1.s1
    (by omega) k1.g1 k1.g2 (by omega) k3.stress k2.grad k2.vol, Res.ok_bind,
    fluxDivergence_form (out := V2.row out c _) (by show c < out.d0; omega)
      (fun n hn => by
        show _ < out.d1
        have := dof_lt (d := P.d) (ndof := P.d + 1) (i := P.d) hn (by omega)
        omega) (by omega) k1.f1
      (by omega) k1.g1 k1.g2 (by omega) k3.edisp k2.grad k2.vol, Res.ok_bind, Res.pure_eq, Res.sat_ok]
  refine ⟨k1, k2, k3, k4, ?_⟩
  dsimp only
  rw [V2.row_row]
  simp only [V2.row, if_true]
  rw [add_assoc]
  rfl

theorem energyCell_ok {c : Nat} (hc : c < nc) {w : EViews R} (h : w.Ok P.d nc) (h0 : ∀ t, w.strain.e c t = 0)
    {r : List R} (hr : r.length = nc) :
    (P.energyCell fabs state control config c (w, r)).Sat fun s => s.1.Ok P.d nc ∧
      Kin fabs P (state.e c) (config.e c) c s.1 ∧
      Kinet P (P.stressForm (state.e c) (control.e c) (config.e c))
        (P.dispForm (state.e c) (control.e c) (config.e c)) c s.1 ∧
      (∀ r, r ≠ c → Same r w s.1) ∧
      s.2 = r.set c (at0 r c + P.energyForm fabs (state.e c) (control.e c) (config.e c)) := by
  unfold Em.energyCell
  dsimp only
  refine Res.Sat.bind (front_ok fabs hd hw hc h h0) ?_
  rintro w1 ⟨k1, k2, k3, k4⟩
  refine Res.Sat.bind (weight_ok fabs hd hw hc k1 k2 k3) ?_
  rintro w2 ⟨l1, l2, l3, l4⟩
  have e0 := l1.e0
  have s0 := l1.s0
  have t0 := l1.t0
  have f0 := l1.f0
  have v0 := l1.v
  rw [scalarProduct_ok (by omega) l1.s1.ge (by omega) l1.e1.ge (by omega) (by omega), Res.ok_bind,
    scalarProduct_ok (by omega) l1.f1.ge (by omega) l1.t1.ge (by omega) (by rw [List.length_set]; omega), Res.ok_bind,
    Res.pure_eq, Res.sat_ok]
  refine ⟨l1, l2, l3, fun r hr => (k4 r hr).trans (l4 r hr), ?_⟩
  dsimp only
  rw [at0_set (by omega), if_pos rfl, List.set_set, l2.vol]
  congr 1
  unfold Em.energyForm
  rw [add_assoc]
  rw [sum_congr rfl fun t ht => (by rw [l3.stress t (mem_range.1 ht), l2.strain t (mem_range.1 ht)] :
      w2.stress.e c t * w2.strain.e c t = P.stressForm (state.e c) (control.e c) (config.e c) t *
        P.strainForm (state.e c) (config.e c) t),
    sum_congr rfl fun k hk => (by rw [l3.edisp k (mem_range.1 hk), l2.efield k (mem_range.1 hk)] :
      w2.edisp.e c k * w2.efield.e c k = P.dispForm (state.e c) (control.e c) (config.e c) k *
        P.fieldForm (state.e c) (config.e c) k)]

/-- **Closed form of the energy**, for every schedule: the result, and the views handed to the output. -/
theorem energy_ok {order : List Nat} (hs : IsSchedule order nc) {result : List R} (hr : result.length = nc) :
    ∃ (w : EViews R) (r : List R), P.energy fabs order nc state control config result = .ok (r, P.energyPlots w) ∧
      w.Ok P.d nc ∧ r.length = nc ∧ ∀ c, c < nc →
        at0 r c = at0 result c + P.energyForm fabs (state.e c) (control.e c) (config.e c) ∧
        Kin fabs P (state.e c) (config.e c) c w ∧
        Kinet P (P.stressForm (state.e c) (control.e c) (config.e c))
          (P.dispForm (state.e c) (control.e c) (config.e c)) c w := by
  obtain ⟨⟨w, r⟩, hwr, hok, hkin, -, hl, hq⟩ := parFor_sched hs (s := ((EViews.new P.d nc : EViews R), result))
    (body := P.energyCell fabs state control config) (fun D (s : EViews R × List R) => s.1.Ok P.d nc ∧
      (∀ c ∈ D, Kin fabs P (state.e c) (config.e c) c s.1 ∧
        Kinet P (P.stressForm (state.e c) (control.e c) (config.e c))
          (P.dispForm (state.e c) (control.e c) (config.e c)) c s.1) ∧
      (∀ c, c ∉ D → ∀ t, s.1.strain.e c t = 0) ∧ s.2.length = nc ∧
      ∀ c, at0 s.2 c = at0 result c +
        if c ∈ D then P.energyForm fabs (state.e c) (control.e c) (config.e c) else 0)
    ⟨EViews.new_ok _ _, by simp, fun _ _ _ => rfl, hr, by simp⟩ (by
      rintro D c ⟨w, r⟩ hc hD - ⟨h1, h2, h3, h4, h5⟩
      dsimp only at h1 h2 h3 h4 h5
      refine (energyCell_ok fabs hd hw hc h1 (h3 c hD) h4).mono ?_
      rintro ⟨w', r'⟩ ⟨k1, k2, k3, k4, k5⟩
      dsimp only at k1 k2 k3 k4 k5 ⊢
      refine ⟨k1, fun r hr => ?_, fun r hr t => ?_, by rw [k5, List.length_set]; exact h4, fun q => ?_⟩
      · by_cases hne : r = c
        · subst hne; exact ⟨k2, k3⟩
        · have := h2 r ((mem_insert.1 hr).resolve_left hne)
          exact ⟨this.1.same fabs (k4 r hne), this.2.same (k4 r hne)⟩
      · have hne : r ≠ c := by rintro rfl; exact hr (mem_insert_self _ _)
        rw [(k4 r hne).strain]
        exact h3 r (fun h => hr (mem_insert_of_mem h)) t
      · rw [k5, at0_set (by omega)]
        by_cases hqc : q = c
        · subst hqc
          rw [if_pos rfl, if_pos (mem_insert_self _ _), h5 q, if_neg hD, add_zero]
        · rw [if_neg hqc, h5 q]
          simp only [mem_insert, hqc, false_or])
  dsimp only at hok hkin hl hq
  refine ⟨w, r, ?_, hok, hl, fun c hc => ⟨?_, hkin c (mem_range.2 hc)⟩⟩
  · unfold Em.energy
    rw [hwr, Res.ok_bind]
    rfl
  · rw [hq c, if_pos (mem_range.2 hc)]

end Cell

section Static
variable {P : Em R} (hd : P.d = 1 ∨ P.d = 2 ∨ P.d = 3) {cells : List Nat} {state control : V2 R} {config : V3 R}
  (hw : WsOk P.d (P.d + 1) cells.length state control config)
include hd hw

/-- **Closed form of the residual**, for every schedule: the result, and the views handed to the output. -/
theorem static_ok (hB : ∀ L ∈ P.bodyLoads, L.Ok P.d (P.d + 1) cells) {sched : Nat → List Nat}
    (hs : ∀ k, IsSchedule (sched k) cells.length) (init : Nat → Nat → Nat) {result : V2 R}
    (hr0 : cells.length ≤ result.d0) (hr1 : (P.d + 1) * (P.d + 1) ≤ result.d1) :
    ∃ w : EViews R, P.static fabs init sched cells state control config result =
      .ok (addRows result cells.length fun c =>
        P.staticRow fabs c (atN cells c) (state.e c) (control.e c) (config.e c), P.plots w) ∧
      w.Ok P.d cells.length ∧ ∀ c, c < cells.length → Kin fabs P (state.e c) (config.e c) c w ∧
        Kinet P (P.stressForm (state.e c) (control.e c) (config.e c))
          (P.dispForm (state.e c) (control.e c) (config.e c)) c w := by
  obtain ⟨T, hTr, hT0, hT1, hT⟩ := voigtTable_ok hd init
  obtain ⟨w, hwr, hwok, hkin⟩ := parFor_sched (hs 0) (s := (EViews.new P.d cells.length : EViews R))
    (body := P.front fabs state config) (fun D w => w.Ok P.d cells.length ∧
      (∀ c ∈ D, Kin fabs P (state.e c) (config.e c) c w ∧
        Kinet P (P.solidStress (state.e c) (config.e c)) (P.solidDisp (state.e c) (config.e c)) c w) ∧
      ∀ c, c ∉ D → ∀ t, w.strain.e c t = 0)
    ⟨EViews.new_ok _ _, by simp, fun _ _ _ => rfl⟩ (by
      rintro D c w hc hD - ⟨h1, h2, h3⟩
      refine (front_ok fabs hd hw hc h1 (h3 c hD)).mono ?_
      rintro w' ⟨k1, k2, k3, k4⟩
      refine ⟨k1, fun r hr => ?_, fun r hr t => ?_⟩
      · by_cases hne : r = c
        · subst hne; exact ⟨k2, k3⟩
        · have := h2 r ((mem_insert.1 hr).resolve_left hne)
          exact ⟨this.1.same fabs (k4 r hne), this.2.same (k4 r hne)⟩
      · have hne : r ≠ c := by rintro rfl; exact hr (mem_insert_self _ _)
        rw [(k4 r hne).strain]
        exact h3 r (fun h => hr (mem_insert_of_mem h)) t)
  obtain ⟨⟨w2, out⟩, hw2, hI, ho⟩ := rowLoopD (hs 1) (I := fun D w => w.Ok P.d cells.length ∧
      ∀ c, c < cells.length → Kin fabs P (state.e c) (config.e c) c w ∧
        (c ∈ D → Kinet P (P.stressForm (state.e c) (control.e c) (config.e c))
          (P.dispForm (state.e c) (control.e c) (config.e c)) c w) ∧
        (c ∉ D → Kinet P (P.solidStress (state.e c) (config.e c)) (P.solidDisp (state.e c) (config.e c)) c w))
      (w := w) ⟨hwok, fun c hc => ⟨(hkin.1 c (mem_range.2 hc)).1, by simp, fun _ => (hkin.1 c (mem_range.2 hc)).2⟩⟩
      (result := result) (fun c => P.solidRow fabs (state.e c) (control.e c) (config.e c))
      (body := P.back T control) (by
        rintro D c w out hc hD ⟨h1, h2⟩ h3 h4
        refine (back_ok fabs hd hw hT0 hT1 hT hc h1 (h2 c hc).1 ((h2 c hc).2.2 hD) (by omega) (by omega)).mono ?_
        rintro s ⟨k1, k2, k3, k4, k5⟩
        refine ⟨⟨k1, fun r hr => ?_⟩, k5⟩
        by_cases hne : r = c
        · subst hne; exact ⟨k2, fun _ => k3, fun h => absurd (mem_insert_self _ _) h⟩
        · have := h2 r hr
          exact ⟨this.1.same fabs (k4 r hne), fun h => (this.2.1 ((mem_insert.1 h).resolve_left hne)).same (k4 r hne),
            fun h => (this.2.2 fun h' => h (mem_insert_of_mem h')).same (k4 r hne)⟩)
  dsimp only at hI ho
  refine ⟨w2, ?_, hI.1, fun c hc => ⟨(hI.2 c hc).1, (hI.2 c hc).2.1 (mem_range.2 hc)⟩⟩
  unfold Em.static
  rw [hTr, Res.ok_bind, hwr, Res.ok_bind, hw2, Res.ok_bind]
  dsimp only
  obtain ⟨k', hk⟩ := bodyLoads_ok hs hw.z0 hw.z1 (-1) P.bodyLoads out 2 hB (by rw [ho]; exact hr0)
    (by rw [ho]; exact hr1)
  rw [hk, Res.ok_bind, ho]
  dsimp only
  rw [Res.pure_eq, addRows_addRows]
  rfl

end Static

end Plato.Em
