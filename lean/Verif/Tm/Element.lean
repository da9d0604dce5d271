import Verif.Tm.Model
import Verif.Dyn.Shared

/-!
# The element of thermomechanics: closed forms of `evaluate`

In two and three dimensions; in one dimension see `Verif.Tm.Output`.
-/

namespace Plato.Tm
open Finset Plato Plato.Mech Plato.Thermal Plato.Dyn

variable {R : Type} [CommRing R]

/-! ## Specification -/

/-- Extents of the tensors. -/
structure TmLaw.Ok (L : TmLaw R) (d : Nat) : Prop where
  stiff : L.stiff.n = numVoigt d
  expand : L.expand.n = d
  cond : L.cond.n = d

/-- Thermal strain of the diagonal of the expansivity: normal components, no shear. -/
def TmLaw.normalStrain (L : TmLaw R) (d : Nat) (T : R) (t : Nat) : R :=
  if t < d then L.scale * L.expand.at L.nonlinear T t t * (T - L.tref) else 0

section Spec
variable (P : Tm R)

/-- Strain of the displacements. -/
def Tm.strainForm [Div R] (U : Nat → R) (X : Nat → Nat → R) (t : Nat) : R :=
  voigtStrain P.d (fun n i => U (n * (P.d + 1) + i)) (gradForm P.d X) t

/-- Temperature at the integration point. -/
def Tm.tempAt (U : Nat → R) : R := interp (P.d + 1) (at0 P.basis) fun n => U ((P.d + 1) * n + P.d)

/-- Temperature gradient. -/
def Tm.gradT [Div R] (U : Nat → R) (X : Nat → Nat → R) (k : Nat) : R :=
  scalarField P.d (fun n => U (n * (P.d + 1) + P.d)) (gradForm P.d X) k

/-- Volume of a cell. -/
def Tm.volForm (fabs : R → R) (X : Nat → Nat → R) : R := fabs (detForm P.d X) * P.cubWeight

/-- Stress of the solid material. -/
def Tm.solidStress [Div R] (U : Nat → R) (X : Nat → Nat → R) (t : Nat) : R :=
  ∑ s ∈ range (numVoigt P.d), (P.strainForm U X s - P.law.normalStrain P.d (P.tempAt U) s) *
    P.law.stiff.at P.law.nonlinear (P.tempAt U) t s

/-- Heat flux of the solid material, with the sign of the temperature gradient. -/
def Tm.solidFlux [Div R] (U : Nat → R) (X : Nat → Nat → R) (k : Nat) : R :=
  ∑ j ∈ range P.d, P.law.scale * P.law.scale * P.gradT U X j * P.law.cond.at P.law.nonlinear (P.tempAt U) k j

/-- Penalised stress and flux. -/
def Tm.stressForm [Div R] (U Z : Nat → R) (X : Nat → Nat → R) (t : Nat) : R :=
  P.solidStress U X t * P.pen (meanDensity (P.d + 1) Z)

def Tm.fluxForm [Div R] (U Z : Nat → R) (X : Nat → Nat → R) (k : Nat) : R :=
  P.solidFlux U X k * P.pen (meanDensity (P.d + 1) Z)

/-- Nodal heat of a flux. -/
def fluxRow (d ndof off : Nat) (v : R) (q : Nat → R) (G : Nat → Nat → R) : Nat → R :=
  ∑ n ∈ range (d + 1), Pi.single (n * ndof + off) (1 * (∑ k ∈ range d, q k * G n k) * v)

/-- What stress and flux add to the row of a cell. -/
def Tm.solidRow [Div R] (fabs : R → R) (U Z : Nat → R) (X : Nat → Nat → R) : Nat → R :=
  stressRow P.d (P.d + 1) (P.volForm fabs X) (P.stressForm U Z X) (gradForm P.d X) +
    fluxRow P.d (P.d + 1) P.d (P.volForm fabs X) (P.fluxForm U Z X) (gradForm P.d X)

/-- All body loads. -/
def Tm.loadRow [Div R] (c gc : Nat) (Z : Nat → R) : Nat → R :=
  (P.bodyLoads.map fun L => L.row P.d (P.d + 1) c gc Z (-1)).sum

/-- Row of the steady residual. -/
def Tm.staticRow [Div R] (fabs : R → R) (c gc : Nat) (U Z : Nat → R) (X : Nat → Nat → R) : Nat → R :=
  P.solidRow fabs U Z X + P.loadRow c gc Z

/-- Penalised rate of the heat content. -/
def Tm.heatForm [Div R] (U V Z : Nat → R) : R :=
  P.mass.rateOf (P.tempAt U) (P.tempAt V) * P.pen (meanDensity (P.d + 1) Z)

/-- A scalar content projected to the nodes. -/
def heatRow (d ndof off : Nat) (B : Nat → R) (v f : R) : Nat → R :=
  ∑ n ∈ range (d + 1), Pi.single (ndof * n + off) (1 * B n * f * v)

/-- Row of the transient residual. -/
def Tm.transientRow [Div R] (fabs : R → R) (U V Z : Nat → R) (X : Nat → Nat → R) : Nat → R :=
  P.solidRow fabs U Z X + heatRow P.d (P.d + 1) P.d (at0 P.basis) (P.volForm fabs X) (P.heatForm U V Z)

end Spec

/-! ## Functors -/

theorem Table.read_ok {F : Table R} {nl : Bool} {T : R} {i j : Nat} (hi : i < F.n) (hj : j < F.n) :
    F.read nl T i j = .ok (F.at nl T i j) := if_pos ⟨hi, hj⟩

theorem thermalStrain_ok {d : Nat} (hd : d = 2 ∨ d = 3) {L : TmLaw R} (hL : L.expand.n = d) (T : R) :
    ∃ ts, thermalStrain d L T = .ok ts ∧ ts.length = numVoigt d ∧
      ∀ t, t < numVoigt d → at0 ts t = L.normalStrain d T t := by
  unfold thermalStrain
  rcases hd with rfl | rfl
  · simp only [forRange, forUp, voigtI, voigtJ, numVoigt, Nat.reduceSub]
    refine ⟨[L.scale * L.expand.at L.nonlinear T 0 0 * (T - L.tref),
      L.scale * L.expand.at L.nonlinear T 1 1 * (T - L.tref), 0], ?_, rfl, ?_⟩
    · simp [rd, wr, Table.read, hL, Res.ok_bind, List.replicate]
    · intro t ht
      change t < 3 at ht
      interval_cases t <;> simp [at0, TmLaw.normalStrain]
  · simp only [forRange, forUp, voigtI, voigtJ, numVoigt, Nat.reduceSub]
    refine ⟨[L.scale * L.expand.at L.nonlinear T 0 0 * (T - L.tref),
      L.scale * L.expand.at L.nonlinear T 1 1 * (T - L.tref),
      L.scale * L.expand.at L.nonlinear T 2 2 * (T - L.tref), 0, 0, 0], ?_, rfl, ?_⟩
    · simp [rd, wr, Table.read, hL, Res.ok_bind, List.replicate]
    · intro t ht
      change t < 6 at ht
      interval_cases t <;> simp [at0, TmLaw.normalStrain]

theorem tmKinematics_ok {d c : Nat} (hd : d = 1 ∨ d = 2 ∨ d = 3) {e tg state : V2 R} {g : V3 R}
    (he : c < e.d0) (he1 : e.d1 = numVoigt d) (ht : c < tg.d0) (ht1 : tg.d1 = d)
    (hs : c < state.d0) (hs1 : (d + 1) * (d + 1) ≤ state.d1) (hg : c < g.d0) (hg1 : g.d1 = d + 1) (hg2 : g.d2 = d) :
    tmKinematics d (d + 1) c e tg state g = .ok (e.row c fun t => if t < numVoigt d then
        (if t < d then 0 else e.e c t) + voigtStrain d (nodal (d + 1) state c) (g.e c) t else e.e c t,
      tg.row c fun k => if k < d then
        scalarField d (fun n => state.e c (n * (d + 1) + d)) (g.e c) k else tg.e c k) := by
  unfold tmKinematics scalarField
  rw [strain_ok hd he he1 hs hs1 hg hg1 hg2 (by omega), Res.ok_bind]
  conv_lhs => rw [← V2.row_self tg c]
  rw [forRange_row (fun k _ => ∑ n ∈ range (d + 1), state.e c (n * (d + 1) + d) * g.e c n k)]
  · rw [Res.ok_bind]; rfl
  intro k f hk
  rw [vwr2_row ht (by omega), Res.ok_bind,
    forRange_addrow (fun n => Pi.single k (state.e c (n * (d + 1) + d) * g.e c n k)) _ (by
      intro n f hn
      have := dof_lt (d := d) (ndof := d + 1) (i := d) hn (by omega)
      rw [vrd2_ok hs (by omega), Res.ok_bind, vrd3_ok hg (by omega) (by omega), Res.ok_bind]
      exact accum2_row ht (by omega))]
  congr 2
  funext r
  by_cases h : r = k
  · subst h; simp
  · simp [h]

theorem tmKinetics_ok {d c : Nat} (hd : d = 2 ∨ d = 3) {L : TmLaw R} (hL : L.Ok d) {σ q e tg : V2 R} {T : List R}
    (hσ : c < σ.d0) (hσ1 : σ.d1 = numVoigt d) (hq : c < q.d0) (hq1 : q.d1 = d) (he : c < e.d0)
    (he1 : e.d1 = numVoigt d) (hg : c < tg.d0) (hg1 : tg.d1 = d) (hT : c < T.length) :
    tmKinetics d L c σ q e tg T = .ok (σ.row c fun t => if t < numVoigt d then
        ∑ s ∈ range (numVoigt d), (e.e c s - L.normalStrain d (at0 T c) s) * L.stiff.at L.nonlinear (at0 T c) t s
          else σ.e c t,
      q.row c fun k => if k < d then
        ∑ j ∈ range d, L.scale * L.scale * tg.e c j * L.cond.at L.nonlinear (at0 T c) k j else q.e c k) := by
  obtain ⟨ts, hts, hl, hat⟩ := thermalStrain_ok hd hL.expand (at0 T c)
  unfold tmKinetics
  rw [rd_at0 hT, Res.ok_bind, hts, Res.ok_bind]
  have h1 : forRange 0 (numVoigt d) σ (fun i stress => do
      let stress ← vwr2 stress c i 0
      forRange 0 (numVoigt d) stress fun j stress => do
        let e ← vrd2 e c j
        let t ← rd ts j
        let k ← L.stiff.read L.nonlinear (at0 T c) i j
        accum2 stress c i ((e - t) * k)) = .ok (σ.row c fun t => if t < numVoigt d then
        ∑ s ∈ range (numVoigt d), (e.e c s - L.normalStrain d (at0 T c) s) * L.stiff.at L.nonlinear (at0 T c) t s
          else σ.e c t) := by
    conv_lhs => rw [← V2.row_self σ c]
    rw [forRange_row (fun t _ => ∑ s ∈ range (numVoigt d), (e.e c s - L.normalStrain d (at0 T c) s) *
      L.stiff.at L.nonlinear (at0 T c) t s)]
    intro t f ht
    rw [vwr2_row hσ (by omega), Res.ok_bind,
      forRange_addrow (fun s => Pi.single t ((e.e c s - L.normalStrain d (at0 T c) s) *
        L.stiff.at L.nonlinear (at0 T c) t s)) _ (by
        intro s f hs
        rw [vrd2_ok he (by omega), Res.ok_bind, rd_at0 (by omega), Res.ok_bind, hat s hs,
          Table.read_ok (by rw [hL.stiff]; exact ht) (by rw [hL.stiff]; exact hs), Res.ok_bind]
        exact accum2_row hσ (by omega))]
    congr 2
    funext r
    by_cases h : r = t
    · subst h; simp
    · simp [h]
  have h2 : forRange 0 d q (fun i flux => do
      let flux ← vwr2 flux c i 0
      forRange 0 d flux fun j flux => do
        let g ← vrd2 tg c j
        let k ← L.cond.read L.nonlinear (at0 T c) i j
        accum2 flux c i (L.scale * L.scale * g * k)) = .ok (q.row c fun k => if k < d then
        ∑ j ∈ range d, L.scale * L.scale * tg.e c j * L.cond.at L.nonlinear (at0 T c) k j else q.e c k) := by
    conv_lhs => rw [← V2.row_self q c]
    rw [forRange_row (fun k _ => ∑ j ∈ range d, L.scale * L.scale * tg.e c j *
      L.cond.at L.nonlinear (at0 T c) k j)]
    intro k f hk
    rw [vwr2_row hq (by omega), Res.ok_bind,
      forRange_addrow (fun j => Pi.single k (L.scale * L.scale * tg.e c j *
        L.cond.at L.nonlinear (at0 T c) k j)) _ (by
        intro j f hj
        rw [vrd2_ok hg (by omega), Res.ok_bind,
          Table.read_ok (by rw [hL.cond]; exact hk) (by rw [hL.cond]; exact hj), Res.ok_bind]
        exact accum2_row hq (by omega))]
    congr 2
    funext r
    by_cases h : r = k
    · subst h; simp
    · simp [h]
  rw [h1, Res.ok_bind, h2, Res.ok_bind]
  rfl

theorem fluxDivergence_form [Div R] {d ndof off c : Nat} {out flux : V2 R} {g : V3 R} {vol : List R}
    (hc : c < out.d0) (h1 : ∀ n, n < d + 1 → n * ndof + off < out.d1) (hf : c < flux.d0) (hf1 : flux.d1 = d)
    (hg : c < g.d0) (hg1 : g.d1 = d + 1) (hg2 : g.d2 = d) (hv : c < vol.length) {v : R} {q : Nat → R}
    {G : Nat → Nat → R} (hq : ∀ k, k < d → flux.e c k = q k)
    (hG : ∀ n k, n < d + 1 → k < d → g.e c n k = G n k) (hvol : at0 vol c = v) :
    fluxDivergence d ndof off c out flux g vol 1 = .ok (out.row c (out.e c + fluxRow d ndof off v q G)) := by
  rw [fluxDivergence_row hc h1 hf hf1 hg hg1 hg2 hv, hvol]
  congr 3
  unfold fluxRow
  refine sum_congr rfl fun n hn => ?_
  congr 3
  refine sum_congr rfl fun k hk => ?_
  rw [hq k (mem_range.1 hk), hG n k (mem_range.1 hn) (mem_range.1 hk)]

/-! ## The loops -/

/-- Extents of the views. -/
structure MViews.Ok (d nc : Nat) (w : MViews R) : Prop where
  g0 : w.grad.d0 = nc
  g1 : w.grad.d1 = d + 1
  g2 : w.grad.d2 = d
  v : w.vol.length = nc
  e0 : w.strain.d0 = nc
  e1 : w.strain.d1 = numVoigt d
  t0 : w.tgrad.d0 = nc
  t1 : w.tgrad.d1 = d
  s0 : w.stress.d0 = nc
  s1 : w.stress.d1 = numVoigt d
  f0 : w.flux.d0 = nc
  f1 : w.flux.d1 = d
  temp : w.temp.length = nc
  rate : w.rate.length = nc
  heat : w.heat.length = nc

theorem MViews.new_ok (d nc : Nat) : (MViews.new d nc : MViews R).Ok d nc :=
  ⟨rfl, rfl, rfl, List.length_replicate, rfl, rfl, rfl, rfl, rfl, rfl, rfl, rfl, List.length_replicate,
    List.length_replicate, List.length_replicate⟩

variable [Div R] (fabs : R → R)

/-- Kinematics of a cell in the views. -/
structure Kin (P : Tm R) (U : Nat → R) (X : Nat → Nat → R) (c : Nat) (w : MViews R) : Prop where
  grad : ∀ n k, n < P.d + 1 → k < P.d → w.grad.e c n k = gradForm P.d X n k
  vol : at0 w.vol c = P.volForm fabs X
  strain : ∀ t, t < numVoigt P.d → w.strain.e c t = P.strainForm U X t
  tgrad : ∀ k, k < P.d → w.tgrad.e c k = P.gradT U X k
  temp : at0 w.temp c = P.tempAt U

/-- Stress and flux of a cell in the views. -/
structure Kinet (P : Tm R) (σ q : Nat → R) (c : Nat) (w : MViews R) : Prop where
  stress : ∀ t, t < numVoigt P.d → w.stress.e c t = σ t
  flux : ∀ k, k < P.d → w.flux.e c k = q k

omit [CommRing R] [Div R] in
/-- The views agree at a cell. -/
structure Same (r : Nat) (w w' : MViews R) [Zero R] : Prop where
  grad : w'.grad.e r = w.grad.e r
  vol : at0 w'.vol r = at0 w.vol r
  strain : w'.strain.e r = w.strain.e r
  tgrad : w'.tgrad.e r = w.tgrad.e r
  stress : w'.stress.e r = w.stress.e r
  flux : w'.flux.e r = w.flux.e r
  temp : at0 w'.temp r = at0 w.temp r

theorem Kin.same {P : Tm R} {U : Nat → R} {X : Nat → Nat → R} {r : Nat} {w w' : MViews R}
    (h : Kin fabs P U X r w) (s : Same r w w') : Kin fabs P U X r w' :=
  ⟨by rw [s.grad]; exact h.grad, by rw [s.vol]; exact h.vol, by rw [s.strain]; exact h.strain,
    by rw [s.tgrad]; exact h.tgrad, by rw [s.temp]; exact h.temp⟩

omit [Div R] in
theorem Kinet.same {P : Tm R} {σ q : Nat → R} {r : Nat} {w w' : MViews R}
    (h : Kinet P σ q r w) (s : Same r w w') : Kinet P σ q r w' :=
  ⟨by rw [s.stress]; exact h.stress, by rw [s.flux]; exact h.flux⟩

section Cell
variable {P : Tm R} (hd : P.d = 2 ∨ P.d = 3) {nc : Nat} {state rate control : V2 R} {config : V3 R}
  (hb : P.basis.length = P.d + 1) (hL : P.law.Ok P.d) (hw : WsOk P.d (P.d + 1) nc state control config)
include hd hb hL hw

theorem front_ok {c : Nat} (hc : c < nc) {w : MViews R} (h : w.Ok P.d nc) (h0 : ∀ t, w.strain.e c t = 0) :
    (P.front fabs state config c w).Sat fun w' => w'.Ok P.d nc ∧ Kin fabs P (state.e c) (config.e c) c w' ∧
      Kinet P (P.solidStress (state.e c) (config.e c)) (P.solidFlux (state.e c) (config.e c)) c w' ∧
      ∀ r, r ≠ c → Same r w w' := by
  have hd' : P.d = 1 ∨ P.d = 2 ∨ P.d = 3 := .inr hd
  obtain ⟨g, v, e, tg, σ, q, T, r, m⟩ := w
  obtain ⟨g0, g1, g2, hv, e0, e1, t0, t1, s0, s1, f0, f1, hT, hr, hm⟩ := h
  replace hv : v.length = nc := hv
  replace hT : T.length = nc := hT
  dsimp only at g0 g1 g2 e0 e1 t0 t1 s0 s1 f0 f1 h0
  obtain ⟨a0, a1, b0, b1, x0, x1, x2⟩ := hw
  have hG : ∀ n k, n < P.d + 1 → k < P.d → (g.cell c (fun n k => if n < P.d + 1 ∧ k < P.d then
      gradForm P.d (config.e c) n k else g.e c n k)).e c n k = gradForm P.d (config.e c) n k := by
    intro n k hn hk
    simp only [V3.cell, if_true]
    rw [if_pos ⟨hn, hk⟩]
  have hlt : ∀ n, n < P.d + 1 → (P.d + 1) * n + P.d < state.d1 := fun n hn => by
    have := dof_lt (d := P.d) (ndof := P.d + 1) (i := P.d) hn (by omega)
    rw [Nat.mul_comm]; omega
  unfold Tm.front
  dsimp only
  rw [computeGradient_form fabs hd' (by omega) x1 x2 (by omega) g1 g2 (by omega), Res.ok_bind]
  dsimp only
  rw [rd_at0 (by rw [List.length_set]; omega), Res.ok_bind, wr_eq (by rw [List.length_set]; omega), Res.ok_bind,
    tmKinematics_ok (g := V3.cell g c _) hd' (by omega) e1 (by omega) t1 (by omega) a1 (by show c < g.d0; omega) g1 g2,
    Res.ok_bind]
  dsimp only
  rw [interpolate1_ok (by omega) hb.ge (by omega) hlt, Res.ok_bind,
    tmKinetics_ok (e := V2.row e c _) (tg := V2.row tg c _) hd hL (by omega) s1 (by omega) f1 (by show c < e.d0; omega)
      e1 (by show c < tg.d0; omega) t1 (by rw [List.length_set]; omega), Res.ok_bind]
  dsimp only
  rw [Res.pure_eq, Res.sat_ok]
  have hE : ∀ t, t < numVoigt P.d → (e.row c fun t => if t < numVoigt P.d then
      (if t < P.d then 0 else e.e c t) + voigtStrain P.d (nodal (P.d + 1) state c) ((g.cell c
        (fun n k => if n < P.d + 1 ∧ k < P.d then gradForm P.d (config.e c) n k else g.e c n k)).e c) t
      else e.e c t).e c t = P.strainForm (state.e c) (config.e c) t := by
    intro t ht
    simp only [V2.row, if_true]
    rw [if_pos ht, h0 t, ite_self, zero_add]
    exact voigtStrain_congr hd' (fun _ _ _ _ => rfl) hG
  have hTG : ∀ k, k < P.d → (tg.row c fun k => if k < P.d then
      scalarField P.d (fun n => state.e c (n * (P.d + 1) + P.d)) ((g.cell c
        (fun n k => if n < P.d + 1 ∧ k < P.d then gradForm P.d (config.e c) n k else g.e c n k)).e c) k
      else tg.e c k).e c k = P.gradT (state.e c) (config.e c) k := by
    intro k hk
    simp only [V2.row, if_true]
    rw [if_pos hk]
    exact scalarField_congr (fun _ _ => rfl) fun n hn => hG n k hn hk
  have hTT : at0 (T.set c (interp (P.d + 1) (at0 P.basis) fun n => state.e c ((P.d + 1) * n + P.d))) c =
      P.tempAt (state.e c) := by
    rw [at0_set (by omega), if_pos rfl]; rfl
  refine ⟨⟨g0, g1, g2, ?_, e0, e1, t0, t1, s0, s1, f0, f1, ?_, hr, hm⟩, ⟨hG, ?_, hE, hTG, hTT⟩, ⟨?_, ?_⟩, ?_⟩
  · simp only [List.length_set]; exact hv
  · simp only [List.length_set]; exact hT
  · rw [at0_set (by rw [List.length_set]; omega), if_pos rfl, at0_set (by omega), if_pos rfl]; rfl
  · intro t ht
    dsimp only
    rw [hTT]
    conv_lhs => simp only [V2.row, if_true]
    rw [if_pos ht]
    unfold Tm.solidStress
    refine sum_congr rfl fun s hs => ?_
    have := hE s (mem_range.1 hs)
    simp only [V2.row, if_true] at this
    rw [this]
  · intro k hk
    dsimp only
    rw [hTT]
    conv_lhs => simp only [V2.row, if_true]
    rw [if_pos hk]
    unfold Tm.solidFlux
    refine sum_congr rfl fun j hj => ?_
    have := hTG j (mem_range.1 hj)
    simp only [V2.row, if_true] at this
    rw [this]
  · intro r hr
    refine ⟨?_, ?_, ?_, ?_, ?_, ?_, ?_⟩
    · simp only [V3.cell, hr, if_false]
    · dsimp only
      rw [at0_set (by rw [List.length_set]; omega), if_neg hr, at0_set (by omega), if_neg hr]
    · simp only [V2.row, hr, if_false]
    · simp only [V2.row, hr, if_false]
    · simp only [V2.row, hr, if_false]
    · simp only [V2.row, hr, if_false]
    · dsimp only
      rw [at0_set (by omega), if_neg hr]

omit hb hL in
theorem back_ok {T : V2 Nat} (hT0 : T.d0 = P.d) (hT1 : T.d1 = P.d)
    (hT : ∀ i j, i < P.d → j < P.d → T.e i j = voigtIndex P.d i j) {c : Nat} (hc : c < nc) {w : MViews R}
    (h : w.Ok P.d nc) (hk : Kin fabs P (state.e c) (config.e c) c w)
    (hq : Kinet P (P.solidStress (state.e c) (config.e c)) (P.solidFlux (state.e c) (config.e c)) c w)
    {out : V2 R} (ho0 : nc ≤ out.d0) (ho1 : (P.d + 1) * (P.d + 1) ≤ out.d1) :
    (P.back T control c (w, out)).Sat fun s => s.1.Ok P.d nc ∧
      Kin fabs P (state.e c) (config.e c) c s.1 ∧
      Kinet P (P.stressForm (state.e c) (control.e c) (config.e c))
        (P.fluxForm (state.e c) (control.e c) (config.e c)) c s.1 ∧
      (∀ r, r ≠ c → Same r w s.1) ∧ s.1.strain = w.strain ∧
      s.2 = out.row c (out.e c + P.solidRow fabs (state.e c) (control.e c) (config.e c)) := by
  have hd' : P.d = 1 ∨ P.d = 2 ∨ P.d = 3 := .inr hd
  obtain ⟨g, v, e, tg, σ, q, θ, r, m⟩ := w
  obtain ⟨g0, g1, g2, hv, e0, e1, t0, t1, s0, s1, f0, f1, hθ, hr, hm⟩ := h
  replace hv : v.length = nc := hv
  dsimp only at g0 g1 g2 e0 e1 t0 t1 s0 s1 f0 f1
  obtain ⟨a0, a1, b0, b1, x0, x1, x2⟩ := hw
  unfold Tm.back
  dsimp only
  rw [applyWeighting_ok (by omega) b1 (by omega) (by omega), Res.ok_bind,
    applyWeighting_ok (by omega) b1 (by omega) (by omega), Res.ok_bind]
  have hS : ∀ t, t < numVoigt P.d → (σ.row c fun t => if t < numVoigt P.d then
      σ.e c t * P.pen (meanDensity (P.d + 1) (control.e c)) else σ.e c t).e c t =
        P.stressForm (state.e c) (control.e c) (config.e c) t := by
    intro t ht
    simp only [V2.row, if_true]
    rw [if_pos ht, hq.stress t ht]
    rfl
  have hQ : ∀ k, k < P.d → (q.row c fun t => if t < P.d then
      q.e c t * P.pen (meanDensity (P.d + 1) (control.e c)) else q.e c t).e c k =
        P.fluxForm (state.e c) (control.e c) (config.e c) k := by
    intro k hk
    simp only [V2.row, if_true]
    rw [if_pos hk, hq.flux k hk]
    rfl
  rw [stressDivergence_row (stress := V2.row σ c _) (vol := v) hd' hT0 hT1 hT (by omega) ho1 (by omega) (by show c < σ.d0; omega) s1
    (by omega) g1 g2 (by omega) hS hk.grad hk.vol, Res.ok_bind,
    fluxDivergence_form (vol := v) (flux := V2.row q c _) (out := V2.row out c _) (by show c < out.d0; omega)
      (fun n hn => by
        show _ < out.d1
        have := dof_lt (d := P.d) (ndof := P.d + 1) (i := P.d) hn (by omega)
        omega) (by show c < q.d0; omega) f1
      (by omega) g1 g2 (by omega) hQ hk.grad hk.vol, Res.ok_bind, Res.pure_eq, Res.sat_ok]
  refine ⟨⟨g0, g1, g2, hv, e0, e1, t0, t1, s0, s1, f0, f1, hθ, hr, hm⟩, ⟨hk.grad, hk.vol, hk.strain, hk.tgrad,
    hk.temp⟩, ⟨hS, hQ⟩, fun r hr => ⟨rfl, rfl, rfl, rfl, ?_, ?_, rfl⟩, rfl, ?_⟩
  · simp only [V2.row, hr, if_false]
  · simp only [V2.row, hr, if_false]
  · dsimp only
    rw [V2.row_row]
    simp only [V2.row, if_true]
    rw [add_assoc]
    rfl

end Cell

section Static
variable {P : Tm R} (hd : P.d = 2 ∨ P.d = 3) {cells : List Nat} {state control : V2 R} {config : V3 R}
  (hb : P.basis.length = P.d + 1) (hL : P.law.Ok P.d)
  (hw : WsOk P.d (P.d + 1) cells.length state control config)
include hd hb hL hw

/-- **Closed form of the steady `evaluate`**, for every schedule: the result, and the views handed to the
output. -/
theorem static_ok (hB : ∀ L ∈ P.bodyLoads, L.Ok P.d (P.d + 1) cells) {sched : Nat → List Nat}
    (hs : ∀ k, IsSchedule (sched k) cells.length) (init : Nat → Nat → Nat) {result : V2 R}
    (hr0 : cells.length ≤ result.d0) (hr1 : (P.d + 1) * (P.d + 1) ≤ result.d1) :
    ∃ w : MViews R, P.static fabs init sched cells state control config result =
      .ok (addRows result cells.length fun c =>
        P.staticRow fabs c (atN cells c) (state.e c) (control.e c) (config.e c), P.staticPlots w) ∧
      w.Ok P.d cells.length ∧ ∀ c, c < cells.length → Kin fabs P (state.e c) (config.e c) c w ∧
        Kinet P (P.stressForm (state.e c) (control.e c) (config.e c))
          (P.fluxForm (state.e c) (control.e c) (config.e c)) c w := by
  obtain ⟨T, hTr, hT0, hT1, hT⟩ := voigtTable_ok (.inr hd : P.d = 1 ∨ P.d = 2 ∨ P.d = 3) init
  obtain ⟨w, hwr, hwok, hkin⟩ := parFor_sched (hs 0) (s := (MViews.new P.d cells.length : MViews R))
    (body := P.front fabs state config) (fun D w => w.Ok P.d cells.length ∧
      (∀ c ∈ D, Kin fabs P (state.e c) (config.e c) c w ∧
        Kinet P (P.solidStress (state.e c) (config.e c)) (P.solidFlux (state.e c) (config.e c)) c w) ∧
      ∀ c, c ∉ D → ∀ t, w.strain.e c t = 0)
    ⟨MViews.new_ok _ _, by simp, fun _ _ _ => rfl⟩ (by
      rintro D c w hc hD - ⟨h1, h2, h3⟩
      refine (front_ok fabs hd hb hL hw hc h1 (h3 c hD)).mono ?_
      rintro w' ⟨k1, k2, k3, k4⟩
      refine ⟨k1, fun r hr => ?_, fun r hr t => ?_⟩
      · by_cases hne : r = c
        · subst hne; exact ⟨k2, k3⟩
        · have := h2 r ((mem_insert.1 hr).resolve_left hne)
          exact ⟨this.1.same fabs (k4 r hne), this.2.same (k4 r hne)⟩
      · have hne : r ≠ c := by rintro rfl; exact hr (mem_insert_self _ _)
        rw [(k4 r hne).strain]
        exact h3 r (fun h => hr (mem_insert_of_mem h)) t)
  obtain ⟨⟨w2, out⟩, hw2, hI, ho⟩ := rowLoopD (hs 1) (I := fun D w => w.Ok P.d cells.length ∧
      ∀ c, c < cells.length → Kin fabs P (state.e c) (config.e c) c w ∧
        (c ∈ D → Kinet P (P.stressForm (state.e c) (control.e c) (config.e c))
          (P.fluxForm (state.e c) (control.e c) (config.e c)) c w) ∧
        (c ∉ D → Kinet P (P.solidStress (state.e c) (config.e c)) (P.solidFlux (state.e c) (config.e c)) c w))
      (w := w) ⟨hwok, fun c hc => ⟨(hkin.1 c (mem_range.2 hc)).1, by simp, fun _ => (hkin.1 c (mem_range.2 hc)).2⟩⟩
      (result := result) (fun c => P.solidRow fabs (state.e c) (control.e c) (config.e c))
      (body := P.back T control) (by
        rintro D c w out hc hD ⟨h1, h2⟩ h3 h4
        refine (back_ok fabs hd hw hT0 hT1 hT hc h1 (h2 c hc).1 ((h2 c hc).2.2 hD) (by omega) (by omega)).mono ?_
        rintro s ⟨k1, k2, k3, k4, -, k5⟩
        refine ⟨⟨k1, fun r hr => ?_⟩, k5⟩
        by_cases hne : r = c
        · subst hne; exact ⟨k2, fun _ => k3, fun h => absurd (mem_insert_self _ _) h⟩
        · have := h2 r hr
          exact ⟨this.1.same fabs (k4 r hne), fun h => (this.2.1 ((mem_insert.1 h).resolve_left hne)).same (k4 r hne),
            fun h => (this.2.2 fun h' => h (mem_insert_of_mem h')).same (k4 r hne)⟩)
  dsimp only at hI ho
  refine ⟨w2, ?_, hI.1, fun c hc => ⟨(hI.2 c hc).1, (hI.2 c hc).2.1 (mem_range.2 hc)⟩⟩
  unfold Tm.static
  rw [hTr, Res.ok_bind, hwr, Res.ok_bind, hw2, Res.ok_bind]
  dsimp only
  obtain ⟨k', hk⟩ := bodyLoads_ok hs hw.z0 hw.z1 (-1) P.bodyLoads out 2 hB (by rw [ho]; exact hr0)
    (by rw [ho]; exact hr1)
  rw [hk, Res.ok_bind, ho]
  dsimp only
  rw [Res.pure_eq, addRows_addRows]
  rfl

end Static

section Transient
variable {P : Tm R} (hd : P.d = 2 ∨ P.d = 3) {nc : Nat} {state rate control : V2 R} {config : V3 R}
  (hb : P.basis.length = P.d + 1) (hL : P.law.Ok P.d)
  (hw : WsOk P.d (P.d + 1) nc state control config) (hv0 : nc ≤ rate.d0)
  (hv1 : (P.d + 1) * (P.d + 1) ≤ rate.d1)
include hd hb hL hw hv0 hv1

theorem transientCell_ok {T : V2 Nat} (hT0 : T.d0 = P.d) (hT1 : T.d1 = P.d)
    (hT : ∀ i j, i < P.d → j < P.d → T.e i j = voigtIndex P.d i j) {c : Nat} (hc : c < nc) {w : MViews R}
    (h : w.Ok P.d nc) (h0 : ∀ t, w.strain.e c t = 0)
    {out : V2 R} (ho0 : nc ≤ out.d0) (ho1 : (P.d + 1) * (P.d + 1) ≤ out.d1) :
    (P.transientCell fabs T state rate control config c (w, out)).Sat fun s => s.1.Ok P.d nc ∧
      Kin fabs P (state.e c) (config.e c) c s.1 ∧
      Kinet P (P.stressForm (state.e c) (control.e c) (config.e c))
        (P.fluxForm (state.e c) (control.e c) (config.e c)) c s.1 ∧
      (∀ r, r ≠ c → Same r w s.1) ∧
      s.2 = out.row c (out.e c + P.transientRow fabs (state.e c) (rate.e c) (control.e c) (config.e c)) := by
  have hlt : ∀ n, n < P.d + 1 → (P.d + 1) * n + P.d < (P.d + 1) * (P.d + 1) := fun n hn => by
    have := dof_lt (d := P.d) (ndof := P.d + 1) (i := P.d) hn (by omega)
    rw [Nat.mul_comm (P.d + 1) n]; omega
  obtain ⟨w1, e1, k1, k2, k3, k4⟩ := front_ok fabs hd hb hL hw hc h h0
  obtain ⟨⟨w2, o2⟩, e2, l1, l2, l3, l4, -, l6⟩ := back_ok fabs hd hw hT0 hT1 hT hc k1 k2 k3 ho0 ho1
  dsimp only at l1 l2 l3 l4 l6
  have zr := l1.rate
  have zh := l1.heat
  have zt := l1.temp
  have zv := l1.v
  have hz0 := hw.z0
  have hz1 := hw.z1
  unfold Tm.transientCell
  dsimp only
  rw [e1, Res.ok_bind, e2, Res.ok_bind]
  dsimp only
  rw [interpolate1_ok (by omega) hb.ge (by omega) (fun n hn => (hlt n hn).trans_le hv1), Res.ok_bind,
    content_ok (by omega) (by rw [List.length_set]; omega) (by omega), Res.ok_bind,
    applyWeighting1_ok (by omega) hz1 (by rw [List.length_set]; omega), Res.ok_bind,
    project1_row (by rw [l6]; show c < out.d0; omega) hb.ge (by omega) (by rw [List.length_set, List.length_set]; omega)
      (fun n hn => by rw [l6]; exact (hlt n hn).trans_le ho1), Res.ok_bind, Res.pure_eq, Res.sat_ok]
  refine ⟨⟨l1.g0, l1.g1, l1.g2, l1.v, l1.e0, l1.e1, l1.t0, l1.t1, l1.s0, l1.s1, l1.f0, l1.f1, l1.temp, ?_, ?_⟩,
    ⟨l2.grad, l2.vol, l2.strain, l2.tgrad, l2.temp⟩, ⟨l3.stress, l3.flux⟩, fun r hr => ?_, ?_⟩
  · simp only [List.length_set]; exact zr
  · simp only [List.length_set]; exact zh
  · have a := k4 r hr
    have b := l4 r hr
    exact ⟨b.grad.trans a.grad, b.vol.trans a.vol, b.strain.trans a.strain, b.tgrad.trans a.tgrad,
      b.stress.trans a.stress, b.flux.trans a.flux, b.temp.trans a.temp⟩
  · dsimp only
    rw [at0_set (by rw [List.length_set]; omega), if_pos rfl, at0_set (by omega), if_pos rfl,
      at0_set (by omega), if_pos rfl, l2.vol, l2.temp, l6, V2.row_row]
    simp only [V2.row, if_true]
    rw [add_assoc]
    rfl

/-- **Closed form of the transient `evaluate`**, for every schedule. -/
theorem transient_ok {order : List Nat} (hs : IsSchedule order nc) (init : Nat → Nat → Nat) {result : V2 R}
    (hr0 : nc ≤ result.d0) (hr1 : (P.d + 1) * (P.d + 1) ≤ result.d1) :
    ∃ w : MViews R, P.transient fabs init order nc state rate control config result =
      .ok (addRows result nc fun c =>
        P.transientRow fabs (state.e c) (rate.e c) (control.e c) (config.e c), P.transientPlots w) ∧
      w.Ok P.d nc ∧ ∀ c, c < nc → Kin fabs P (state.e c) (config.e c) c w ∧
        Kinet P (P.stressForm (state.e c) (control.e c) (config.e c))
          (P.fluxForm (state.e c) (control.e c) (config.e c)) c w := by
  obtain ⟨T, hTr, hT0, hT1, hT⟩ := voigtTable_ok (.inr hd : P.d = 1 ∨ P.d = 2 ∨ P.d = 3) init
  obtain ⟨⟨w, out⟩, hwr, hI, ho⟩ := rowLoopD hs (I := fun D w => w.Ok P.d nc ∧
      (∀ c ∈ D, Kin fabs P (state.e c) (config.e c) c w ∧
        Kinet P (P.stressForm (state.e c) (control.e c) (config.e c))
          (P.fluxForm (state.e c) (control.e c) (config.e c)) c w) ∧
      ∀ c, c ∉ D → ∀ t, w.strain.e c t = 0)
    (w := (MViews.new P.d nc : MViews R)) ⟨MViews.new_ok _ _, by simp, fun _ _ _ => rfl⟩ (result := result)
    (fun c => P.transientRow fabs (state.e c) (rate.e c) (control.e c) (config.e c))
    (body := P.transientCell fabs T state rate control config) (by
      rintro D c w out hc hD ⟨h1, h2, h3⟩ h4 h5
      refine (transientCell_ok fabs hd hb hL hw hv0 hv1 hT0 hT1 hT hc h1 (h3 c hD) (by omega) (by omega)).mono ?_
      rintro s ⟨k1, k2, k3, k4, k5⟩
      refine ⟨⟨k1, fun r hr => ?_, fun r hr t => ?_⟩, k5⟩
      · by_cases hne : r = c
        · subst hne; exact ⟨k2, k3⟩
        · have := h2 r ((mem_insert.1 hr).resolve_left hne)
          exact ⟨this.1.same fabs (k4 r hne), this.2.same (k4 r hne)⟩
      · have hne : r ≠ c := by rintro rfl; exact hr (mem_insert_self _ _)
        rw [(k4 r hne).strain]
        exact h3 r (fun h => hr (mem_insert_of_mem h)) t)
  dsimp only at hI ho
  refine ⟨w, ?_, hI.1, fun c hc => hI.2.1 c (mem_range.2 hc)⟩
  unfold Tm.transient
  rw [hTr, Res.ok_bind, hwr, Res.ok_bind, ho]
  rfl

end Transient

end Plato.Tm
