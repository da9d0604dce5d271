import Verif.Thermal.Element
import Verif.Mech.Elastic

/-!
# Rows of heat conduction with automatic differentiation values
-/

namespace Plato.Thermal
open Finset Plato Plato.Mech

variable {E : Type} [NormedAddCommGroup E] [NormedSpace ℝ E]

/-- The conductivity of a residual instantiated with automatic differentiation values: the tables are
numbers. -/
def FluxLaw.lift (F : FluxLaw ℝ) : FluxLaw Fad :=
  ⟨F.nonlinear, fun i j => Fad.const (F.const i j), fun i j => Fad.const (F.c0 i j),
    fun i j => Fad.const (F.c1 i j), fun i j => Fad.const (F.c2 i j)⟩

/-- The same for a polynomial. -/
def Quad.lift (q : Quad ℝ) : Quad Fad := ⟨Fad.const q.c0, Fad.const q.c1, Fad.const q.c2⟩

/-- The same for density and heat capacity. -/
def MassLaw.lift (m : MassLaw ℝ) : MassLaw Fad :=
  ⟨m.nonlinear, m.rhoFn.lift, m.cpFn.lift, Fad.const m.rho, Fad.const m.cp⟩

/-- A residual instantiated with automatic differentiation values. -/
def Thermal.lift (P : Thermal ℝ) (penF : Fad → Fad) : Thermal Fad :=
  ⟨P.d, Fad.const P.cubWeight, P.basis.map Fad.const, P.law.lift, P.mass.lift, penF,
    P.bodyLoads.map BodyLoad.lift⟩

section
variable {L : ℕ → E →L[ℝ] ℝ} {N : ℕ} {x : E}

theorem at0_const_tracks (v : List ℝ) (i : ℕ) : Tracks L N x (at0 (v.map Fad.const) i) fun _ => at0 v i := by
  unfold at0
  rw [List.getElem?_map]
  cases v[i]? with
  | none => exact Tracks.zero
  | some a => exact Tracks.const a

theorem interp_tracks {npc : ℕ} {BF UF : ℕ → Fad} {B : ℕ → ℝ} {UR : E → ℕ → ℝ}
    (hB : ∀ n, n < npc → Tracks L N x (BF n) fun _ => B n)
    (hU : ∀ n, n < npc → Tracks L N x (UF n) fun y => UR y n) :
    Tracks L N x (interp npc BF UF) fun y => interp npc B (UR y) :=
  Tracks.sum _ fun n hn => (hB n (mem_range.1 hn)).mul (hU n (mem_range.1 hn))

theorem cond_tracks {F : FluxLaw ℝ} {TF : Fad} {TR : E → ℝ} (hT : Tracks L N x TF TR) (i j : ℕ) :
    Tracks L N x (F.lift.cond TF i j) fun y => F.cond (TR y) i j := by
  unfold FluxLaw.cond FluxLaw.lift
  by_cases h : F.nonlinear
  · simp only [h, if_true]
    exact ((hT.mul (Tracks.const _)).add (Tracks.const _)).add ((hT.mul hT).mul (Tracks.const _))
  · simp only [h]
    exact Tracks.const _

theorem quad_tracks {q : Quad ℝ} {TF : Fad} {TR : E → ℝ} (hT : Tracks L N x TF TR) :
    Tracks L N x (q.lift.at TF) fun y => q.at (TR y) :=
  ((hT.mul (Tracks.const _)).add (Tracks.const _)).add ((hT.mul hT).mul (Tracks.const _))

theorem rateOf_tracks {m : MassLaw ℝ} {TF rF : Fad} {TR rR : E → ℝ} (hT : Tracks L N x TF TR)
    (hr : Tracks L N x rF rR) : Tracks L N x (m.lift.rateOf TF rF) fun y => m.rateOf (TR y) (rR y) := by
  unfold MassLaw.rateOf MassLaw.lift
  by_cases h : m.nonlinear
  · simp only [h, if_true]
    exact (hr.mul (quad_tracks hT)).mul (quad_tracks hT)
  · simp only [h]
    exact (hr.mul (Tracks.const _)).mul (Tracks.const _)

variable {P : Thermal ℝ} {penF : Fad → Fad} {UF VF ZF : ℕ → Fad} {XF : ℕ → ℕ → Fad} {UR VR ZR : E → ℕ → ℝ}
  {XR : E → ℕ → ℕ → ℝ} (hd : P.d = 1 ∨ P.d = 2 ∨ P.d = 3)
  (hU : ∀ n, n < P.d + 1 → Tracks L N x (UF n) fun y => UR y n)
  (hV : ∀ n, n < P.d + 1 → Tracks L N x (VF n) fun y => VR y n)
  (hZ : ∀ n, n < P.d + 1 → Tracks L N x (ZF n) fun y => ZR y n)
  (hX : ∀ n k, n < P.d + 1 → k < P.d → Tracks L N x (XF n k) fun y => XR y n k)
  (hdet : detForm P.d (XR x) ≠ 0) (hpen : PenOk penF P.pen (meanDensity (P.d + 1) (ZR x)))

include hU in
theorem point_tracks : Tracks L N x ((P.lift penF).point UF) fun y => P.point (UR y) :=
  interp_tracks (fun _ _ => at0_const_tracks _ _) hU

include hd hU hZ hX hdet hpen

theorem condRow_tracks {KF : ℕ → ℕ → Fad} {KR : E → ℕ → ℕ → ℝ}
    (hK : ∀ i j, Tracks L N x (KF i j) fun y => KR y i j) (r : ℕ) :
    Tracks L N x ((P.lift penF).condRow Fad.fabs KF UF ZF XF r)
      fun y => P.condRow abs (KR y) (UR y) (ZR y) (XR y) r := by
  unfold Thermal.condRow
  simp only [Finset.sum_apply]
  refine Tracks.sum _ fun n _ => single_tracks ?_
  refine Tracks.mul (Tracks.one.neg.mul (Tracks.sum _ fun k hk => ?_))
    (((detForm_tracks hd hX).fabs hdet).mul (Tracks.const _))
  refine Tracks.mul (Tracks.mul ?_ (hpen.tracks (meanDensity_tracks (Nat.succ_ne_zero _) hZ)))
    (gradForm_tracks hd hX hdet (mem_range.1 hk))
  exact (Tracks.sum _ fun j hj => (hK k j).mul (Tracks.sum _ fun n hn =>
    (hU n (mem_range.1 hn)).mul (gradForm_tracks hd hX hdet (mem_range.1 hj)))).neg

include hV in
theorem storageRow_tracks (r : ℕ) :
    Tracks L N x ((P.lift penF).storageRow Fad.fabs UF VF ZF XF r)
      fun y => P.storageRow abs (UR y) (VR y) (ZR y) (XR y) r := by
  unfold Thermal.storageRow
  simp only [Finset.sum_apply]
  refine Tracks.sum _ fun n _ => single_tracks ?_
  refine Tracks.mul (Tracks.mul (Tracks.one.mul (at0_const_tracks _ _)) (Tracks.mul ?_
    (hpen.tracks (meanDensity_tracks (Nat.succ_ne_zero _) hZ))))
    (((detForm_tracks hd hX).fabs hdet).mul (Tracks.const _))
  exact rateOf_tracks (point_tracks (penF := penF) hU) (point_tracks (penF := penF) hV)

omit hd hU hX hdet hpen in
theorem loadRow_tracks (c gc r : ℕ) : Tracks L N x ((P.lift penF).loadRow c gc ZF r)
    fun y => P.loadRow c gc (ZR y) r := by
  unfold Thermal.loadRow Thermal.lift
  dsimp only
  induction P.bodyLoads with
  | nil => exact Tracks.zero
  | cons B Bs ih =>
    simp only [List.map_cons, List.sum_cons, Pi.add_apply] at ih ⊢
    exact (bodyLoad_tracks B hZ r).add ih

theorem staticRow_tracks (c gc r : ℕ) : Tracks L N x ((P.lift penF).staticRow Fad.fabs c gc UF ZF XF r)
    fun y => P.staticRow abs c gc (UR y) (ZR y) (XR y) r :=
  (condRow_tracks hd hU hZ hX hdet hpen (fun i j => cond_tracks (point_tracks (penF := penF) hU) i j) r).add
    (loadRow_tracks hZ c gc r)

include hV in
theorem heatRow_tracks (r : ℕ) : Tracks L N x ((P.lift penF).heatRow Fad.fabs UF VF ZF XF r)
    fun y => P.heatRow abs (UR y) (VR y) (ZR y) (XR y) r :=
  (condRow_tracks hd hU hZ hX hdet hpen (fun _ _ => Tracks.const _) r).add
    (storageRow_tracks hd hU hV hZ hX hdet hpen r)

end

/-! ## Rows depend on the entries of their cell only -/

section Congr
variable {R : Type} [CommRing R] [Div R] {fabs : R → R} {P : Thermal R} {U U' V V' Z Z' : ℕ → R}
  {X X' : ℕ → ℕ → R}

omit [Div R] in
theorem interp_congr {npc : ℕ} {B : ℕ → R} (hU : ∀ n, n < npc → U n = U' n) :
    interp npc B U = interp npc B U' := sum_congr rfl fun n hn => by rw [hU n (mem_range.1 hn)]

theorem condRow_congr (hd : P.d = 1 ∨ P.d = 2 ∨ P.d = 3) {K : ℕ → ℕ → R} (hU : ∀ n, n < P.d + 1 → U n = U' n)
    (hZ : ∀ n, n < P.d + 1 → Z n = Z' n) (hX : ∀ a k, a < P.d + 1 → k < P.d → X a k = X' a k) :
    P.condRow fabs K U Z X = P.condRow fabs K U' Z' X' := by
  unfold Thermal.condRow
  refine sum_congr rfl fun n _ => ?_
  have hG : ∀ n k, k < P.d → gradForm P.d X n k = gradForm P.d X' n k := fun n k hk => gradForm_congr hd hX hk
  congr 2
  · congr 1
    refine sum_congr rfl fun k hk => ?_
    rw [hG n k (mem_range.1 hk)]
    congr 1
    unfold Thermal.fluxForm
    rw [meanDensity_congr hZ]
    congr 1
    exact fourier_congr (fun j hj => scalarField_congr hU fun n _ => hG n j hj) k
  · unfold Thermal.volForm
    rw [detForm_congr hd hX]

theorem storageRow_congr (hd : P.d = 1 ∨ P.d = 2 ∨ P.d = 3) (hU : ∀ n, n < P.d + 1 → U n = U' n)
    (hV : ∀ n, n < P.d + 1 → V n = V' n) (hZ : ∀ n, n < P.d + 1 → Z n = Z' n)
    (hX : ∀ a k, a < P.d + 1 → k < P.d → X a k = X' a k) :
    P.storageRow fabs U V Z X = P.storageRow fabs U' V' Z' X' := by
  unfold Thermal.storageRow Thermal.volForm Thermal.point
  rw [interp_congr hU, interp_congr hV, meanDensity_congr hZ, detForm_congr hd hX]

theorem loadRow_congr {c gc : ℕ} (hZ : ∀ n, n < P.d + 1 → Z n = Z' n) :
    P.loadRow c gc Z = P.loadRow c gc Z' := by
  unfold Thermal.loadRow BodyLoad.row
  rw [meanDensity_congr hZ]

theorem staticRow_congr (hd : P.d = 1 ∨ P.d = 2 ∨ P.d = 3) {c gc : ℕ} (hU : ∀ n, n < P.d + 1 → U n = U' n)
    (hZ : ∀ n, n < P.d + 1 → Z n = Z' n) (hX : ∀ a k, a < P.d + 1 → k < P.d → X a k = X' a k) :
    P.staticRow fabs c gc U Z X = P.staticRow fabs c gc U' Z' X' := by
  unfold Thermal.staticRow Thermal.point
  rw [interp_congr hU, condRow_congr hd hU hZ hX, loadRow_congr hZ]

theorem heatRow_congr (hd : P.d = 1 ∨ P.d = 2 ∨ P.d = 3) (hU : ∀ n, n < P.d + 1 → U n = U' n)
    (hV : ∀ n, n < P.d + 1 → V n = V' n) (hZ : ∀ n, n < P.d + 1 → Z n = Z' n)
    (hX : ∀ a k, a < P.d + 1 → k < P.d → X a k = X' a k) :
    P.heatRow fabs U V Z X = P.heatRow fabs U' V' Z' X' := by
  unfold Thermal.heatRow
  rw [condRow_congr hd hU hZ hX, storageRow_congr hd hU hV hZ hX]

end Congr

end Plato.Thermal
