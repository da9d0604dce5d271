import Verif.Mech.Element
import Verif.Mech.Fad

/-!
# The elastostatic element evaluated with automatic differentiation values

The entries computed with automatic differentiation carry the derivatives of the entries computed
with numbers, whichever of state, control and configuration depend on the independent variables.
-/

namespace Plato.Mech
open Finset

variable {E : Type} [NormedAddCommGroup E] [NormedSpace ℝ E]

/-- The penalty function on automatic differentiation values follows the chain rule at `ρ`. -/
def PenOk (penF : Fad → Fad) (pen : ℝ → ℝ) (ρ : ℝ) : Prop :=
  ∃ pen', HasDerivAt pen pen' ρ ∧ ∀ a : Fad, a.val = ρ → (penF a).val = pen ρ ∧
    ∀ k, (penF a).dx k = pen' * a.dx k

/-- The data of a body load are plain numbers in every evaluation type. -/
def BodyLoad.lift (L : BodyLoad ℝ) : BodyLoad Fad :=
  ⟨L.numPoints, L.weights.map Fad.const, ⟨L.basis.d0, L.basis.d1, fun i j => Fad.const (L.basis.e i j)⟩,
    L.values.map Fad.const, L.det.map Fad.const, L.dof⟩

/-- The residual evaluated with automatic differentiation values: the same object with the other
template arguments. -/
def Elastostatic.lift (P : Elastostatic ℝ) (penF : Fad → Fad) : Elastostatic Fad :=
  ⟨P.d, fun i j => Fad.const (P.stiff i j), fun i => Fad.const (P.refStrain i), penF,
    Fad.const P.cubWeight, P.forcing, P.bodyLoads.map BodyLoad.lift⟩

section
variable {L : ℕ → E →L[ℝ] ℝ} {N : ℕ} {x : E}

theorem fieldGrad_tracks {d i j : ℕ} {UF GF : ℕ → ℕ → Fad} {UR GR : E → ℕ → ℕ → ℝ}
    (hU : ∀ n, n < d + 1 → Tracks L N x (UF n i) fun y => UR y n i)
    (hG : ∀ n, n < d + 1 → Tracks L N x (GF n j) fun y => GR y n j) :
    Tracks L N x (fieldGrad d UF GF i j) fun y => fieldGrad d (UR y) (GR y) i j :=
  Tracks.sum _ fun n hn => (hU n (mem_range.1 hn)).mul (hG n (mem_range.1 hn))

theorem voigtStrain_tracks {d t : ℕ} (hd : d = 1 ∨ d = 2 ∨ d = 3) {UF GF : ℕ → ℕ → Fad}
    {UR GR : E → ℕ → ℕ → ℝ}
    (hU : ∀ n i, n < d + 1 → i < d → Tracks L N x (UF n i) fun y => UR y n i)
    (hG : ∀ n j, n < d + 1 → j < d → Tracks L N x (GF n j) fun y => GR y n j) :
    Tracks L N x (voigtStrain d UF GF t) fun y => voigtStrain d (UR y) (GR y) t := by
  have h := voigtPair_lt (t := t) hd
  have e : ∀ i j, i < d → j < d →
      Tracks L N x (fieldGrad d UF GF i j) fun y => fieldGrad d (UR y) (GR y) i j := fun i j hi hj =>
    fieldGrad_tracks (fun n hn => hU n i hn hi) fun n hn => hG n j hn hj
  exact (e _ _ h.1 h.1).ite ((e _ _ h.1 h.2).add (e _ _ h.2 h.1))

theorem nodalForce_tracks {d n i : ℕ} (hd : d = 1 ∨ d = 2 ∨ d = 3) (hi : i < d) {σF : ℕ → Fad}
    {σR : E → ℕ → ℝ} {GF : ℕ → ℕ → Fad} {GR : E → ℕ → ℕ → ℝ}
    (hσ : ∀ t, t < numVoigt d → Tracks L N x (σF t) fun y => σR y t)
    (hG : ∀ j, j < d → Tracks L N x (GF n j) fun y => GR y n j) :
    Tracks L N x (nodalForce d σF GF n i) fun y => nodalForce d (σR y) (GR y) n i :=
  Tracks.sum _ fun j hj => (hσ _ (voigtIndex_lt hd hi (mem_range.1 hj))).mul (hG j (mem_range.1 hj))

section Grad
variable {d : ℕ} (hd : d = 1 ∨ d = 2 ∨ d = 3) {XF : ℕ → ℕ → Fad} {XR : E → ℕ → ℕ → ℝ}
  (hX : ∀ n i, n < d + 1 → i < d → Tracks L N x (XF n i) fun y => XR y n i)

include hX in
theorem edge_tracks {i n : ℕ} (hi : i < d) (hn : n < d) :
    Tracks L N x (edge d XF i n) fun y => edge d (XR y) i n :=
  (hX n i (by omega) hi).sub (hX d i (by omega) hi)

include hd hX

theorem detForm_tracks : Tracks L N x (detForm d XF) fun y => detForm d (XR y) := by
  have e : ∀ i n, i < d → n < d → Tracks L N x (edge d XF i n) fun y => edge d (XR y) i n :=
    fun i n hi hn => edge_tracks hX hi hn
  rcases hd with rfl | rfl | rfl
  · exact e 0 0 (by omega) (by omega)
  · exact ((e 0 0 (by omega) (by omega)).mul (e 1 1 (by omega) (by omega))).sub
      ((e 0 1 (by omega) (by omega)).mul (e 1 0 (by omega) (by omega)))
  · have m : ∀ n1 n2 n3, n1 < 3 → n2 < 3 → n3 < 3 → Tracks L N x
        (edge 3 XF 0 n1 * edge 3 XF 1 n2 * edge 3 XF 2 n3)
        (fun y => edge 3 (XR y) 0 n1 * edge 3 (XR y) 1 n2 * edge 3 (XR y) 2 n3) := fun n1 n2 n3 h1 h2 h3 =>
      ((e 0 n1 (by omega) h1).mul (e 1 n2 (by omega) h2)).mul (e 2 n3 (by omega) h3)
    exact (((((m 0 1 2 (by omega) (by omega) (by omega)).add (m 1 2 0 (by omega) (by omega) (by omega))).add
      (m 2 0 1 (by omega) (by omega) (by omega))).sub (m 0 2 1 (by omega) (by omega) (by omega))).sub
      (m 1 0 2 (by omega) (by omega) (by omega))).sub (m 2 1 0 (by omega) (by omega) (by omega))

theorem cofForm_tracks {n k : ℕ} (hn : n < d) (hk : k < d) :
    Tracks L N x (cofForm d XF n k) fun y => cofForm d (XR y) n k := by
  have e : ∀ i n, i < d → n < d → Tracks L N x (edge d XF i n) fun y => edge d (XR y) i n :=
    fun i n hi hn => edge_tracks hX hi hn
  rcases hd with rfl | rfl | rfl
  · interval_cases n; interval_cases k; exact Tracks.one
  · interval_cases n <;> interval_cases k
    · exact e 1 1 (by omega) (by omega)
    · exact (e 0 1 (by omega) (by omega)).neg
    · exact (e 1 0 (by omega) (by omega)).neg
    · exact e 0 0 (by omega) (by omega)
  · have m : ∀ i n i' n' j m j' m', i < 3 → n < 3 → i' < 3 → n' < 3 → j < 3 → m < 3 → j' < 3 → m' < 3 →
        Tracks L N x (edge 3 XF i n * edge 3 XF i' n' - edge 3 XF j m * edge 3 XF j' m')
        (fun y => edge 3 (XR y) i n * edge 3 (XR y) i' n' - edge 3 (XR y) j m * edge 3 (XR y) j' m') :=
      fun i n i' n' j m j' m' h1 h2 h3 h4 h5 h6 h7 h8 =>
        ((e i n h1 h2).mul (e i' n' h3 h4)).sub ((e j m h5 h6).mul (e j' m' h7 h8))
    interval_cases n <;> interval_cases k <;>
      exact m _ _ _ _ _ _ _ _ (by omega) (by omega) (by omega) (by omega) (by omega) (by omega)
        (by omega) (by omega)

theorem gradForm_tracks (hdet : detForm d (XR x) ≠ 0) {n k : ℕ} (hk : k < d) :
    Tracks L N x (gradForm d XF n k) fun y => gradForm d (XR y) n k := by
  unfold gradForm
  by_cases h : n < d
  · simp only [h, if_true]
    exact (cofForm_tracks hd hX h hk).div (detForm_tracks hd hX) hdet
  · simp only [h, if_false]
    exact (Tracks.sum _ fun m hm =>
      (cofForm_tracks hd hX (mem_range.1 hm) hk).div (detForm_tracks hd hX) hdet).neg

end Grad

theorem meanDensity_tracks {npc : ℕ} (h0 : npc ≠ 0) {ZF : ℕ → Fad} {ZR : E → ℕ → ℝ}
    (hZ : ∀ n, n < npc → Tracks L N x (ZF n) fun y => ZR y n) :
    Tracks L N x (meanDensity npc ZF) fun y => meanDensity npc (ZR y) :=
  (Tracks.sum _ fun n hn => hZ n (mem_range.1 hn)).div (Tracks.natCast npc) (by exact_mod_cast h0)

theorem PenOk.tracks {penF : Fad → Fad} {pen : ℝ → ℝ} {a : Fad} {f : E → ℝ} (ha : Tracks L N x a f)
    (hp : PenOk penF pen (f x)) : Tracks L N x (penF a) fun y => pen (f y) := by
  obtain ⟨pen', hd, h⟩ := hp
  exact ha.comp hd (h a ha.val).1 (h a ha.val).2

theorem single_tracks {m r : ℕ} {a : Fad} {f : E → ℝ} (h : Tracks L N x a f) :
    Tracks L N x ((Pi.single m a : ℕ → Fad) r) fun y => (Pi.single m (f y) : ℕ → ℝ) r := by
  by_cases hr : r = m
  · subst hr; simpa using h
  · simpa [Pi.single_eq_of_ne hr] using Tracks.zero

/-- A body load. -/
theorem bodyLoad_tracks (B : BodyLoad ℝ) {ZF : ℕ → Fad} {ZR : E → ℕ → ℝ} {d ndof c gc : ℕ}
    (hZ : ∀ n, n < d + 1 → Tracks L N x (ZF n) fun y => ZR y n)
    (r : ℕ) : Tracks L N x (B.lift.row d ndof c gc ZF (-1) r) fun y => B.row d ndof c gc (ZR y) (-1) r := by
  have hat : ∀ (v : List ℝ) (i : ℕ), Tracks L N x (at0 (v.map Fad.const) i) fun _ => at0 v i := by
    intro v i
    unfold at0
    rw [List.getElem?_map]
    cases v[i]? with
    | none => exact Tracks.zero
    | some a => exact Tracks.const a
  unfold BodyLoad.row
  simp only [Finset.sum_apply]
  refine Tracks.sum _ fun p _ => Tracks.sum _ fun a _ => single_tracks ?_
  exact (((((Tracks.one.neg.mul (hat _ _)).mul (hat _ _)).mul (hat _ _)).mul (Tracks.const _)).mul
    (meanDensity_tracks (Nat.succ_ne_zero _) hZ))

section Element
variable {P : Elastostatic ℝ} {penF : Fad → Fad} (hd : P.d = 1 ∨ P.d = 2 ∨ P.d = 3)
  {UF ZF : ℕ → Fad} {XF : ℕ → ℕ → Fad} {UR ZR : E → ℕ → ℝ} {XR : E → ℕ → ℕ → ℝ}
  (hU : ∀ l, l < (P.d + 1) * P.d → Tracks L N x (UF l) fun y => UR y l)
  (hZ : ∀ n, n < P.d + 1 → Tracks L N x (ZF n) fun y => ZR y n)
  (hX : ∀ n i, n < P.d + 1 → i < P.d → Tracks L N x (XF n i) fun y => XR y n i)
  (hdet : detForm P.d (XR x) ≠ 0) (hpen : PenOk penF P.pen (meanDensity (P.d + 1) (ZR x)))

include hd hU hX hdet in
theorem strainForm_tracks (t : ℕ) : Tracks L N x ((P.lift penF).strainForm UF XF t)
    fun y => P.strainForm (UR y) (XR y) t :=
  voigtStrain_tracks (d := P.d) hd (fun n i hn hi => hU _ (dof_lt hn hi))
    fun n j _ hj => gradForm_tracks hd hX hdet hj

include hd hU hX hdet in
theorem solidStress_tracks (t : ℕ) : Tracks L N x ((P.lift penF).solidStress UF XF t)
    fun y => P.solidStress (UR y) (XR y) t :=
  Tracks.sum _ fun s _ => ((strainForm_tracks hd hU hX hdet s).sub (Tracks.const _)).mul (Tracks.const _)

include hd hU hZ hX hdet hpen

theorem stressForm_tracks (t : ℕ) : Tracks L N x ((P.lift penF).stressForm UF ZF XF t)
    fun y => P.stressForm (UR y) (ZR y) (XR y) t := by
  have hf : Tracks L N x ((P.lift penF).forcingForm t) fun _ => P.forcingForm t := by
    unfold Elastostatic.forcingForm Elastostatic.lift
    cases P.forcing with
    | none => exact Tracks.zero
    | some col => exact Tracks.const _
  exact ((solidStress_tracks hd hU hX hdet t).sub hf).mul
    (hpen.tracks (meanDensity_tracks (Nat.succ_ne_zero _) hZ))

/-- The internal force of a cell. -/
theorem forceRow_tracks (r : ℕ) : Tracks L N x ((P.lift penF).forceRow Fad.fabs UF ZF XF r)
    fun y => P.forceRow abs (UR y) (ZR y) (XR y) r := by
  unfold Elastostatic.forceRow
  simp only [Finset.sum_apply]
  refine Tracks.sum _ fun i hi => Tracks.sum _ fun n _ => single_tracks ?_
  refine Tracks.mul (((detForm_tracks hd hX).fabs hdet).mul (Tracks.const _)) ?_
  exact nodalForce_tracks (d := P.d) hd (mem_range.1 hi)
    (fun t _ => stressForm_tracks hd hU hZ hX hdet hpen t) fun j hj => gradForm_tracks hd hX hdet hj

omit hd hU hX hdet hpen
include hZ in
theorem loadRow_tracks (c gc r : ℕ) : Tracks L N x ((P.lift penF).loadRow c gc ZF r)
    fun y => P.loadRow c gc (ZR y) r := by
  unfold Elastostatic.loadRow Elastostatic.lift
  dsimp only
  induction P.bodyLoads with
  | nil => exact Tracks.zero
  | cons B Bs ih =>
    simp only [List.map_cons, List.sum_cons, Pi.add_apply] at ih ⊢
    exact (bodyLoad_tracks B hZ r).add ih

end Element

end

end Plato.Mech
