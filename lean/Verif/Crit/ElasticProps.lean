import Verif.Crit.Elastic
import Verif.Mech.Stiffness
import Verif.Mech.LoadFalse
import Verif.Simplex.Volume

/-!
# C53: elastic energy and volume as quantities of mechanics
-/

namespace Plato.Crit
open Finset Plato Plato.Mech

section Energy
variable {M : FeModel} (hM : M.Ok) {P : Nat → Elastostatic ℝ} (h : MechOk M P)
include h

theorem energy_local (half : ℝ) : FormLocal M fun k U Z X => energyOf abs half (P k) U Z X := by
  intro k U U' Z Z' X X' hk hU hZ hX
  have hd := h.d k hk
  have hnp : M.npc = (P k).d + 1 := by rw [FeModel.npc, hd]
  have hU' : ∀ l, l < ((P k).d + 1) * (P k).d → U l = U' l :=
    fun l hl => hU l (by rw [hnp, h.ndof, ← hd]; exact hl)
  have hX' : ∀ a i, a < (P k).d + 1 → i < (P k).d → X a i = X' a i := fun a i ha hi => hX a i (by omega) (by omega)
  dsimp only
  unfold energyOf Elastostatic.volForm
  rw [weightedStress_congr (h.d3 hk) hU' (fun a ha => hZ a (by omega)) hX', detForm_congr (h.d3 hk) hX']
  simp only [strainForm_congr (h.d3 hk) hU' hX']

omit h in
/-- Without reference strain the energy of a cell is the quadratic form of the stiffness. -/
theorem energyOf_eq {P : Elastostatic ℝ} (hr : ∀ t, t < numVoigt P.d → P.refStrain t = 0) (half : ℝ) (U Z : Nat → ℝ)
    (X : Nat → Nat → ℝ) : energyOf abs half P U Z X = half * cellEnergy P Z X U U := by
  unfold energyOf cellEnergy weightedStress Elastostatic.solidStress
  rw [sum_congr rfl fun t _ => by
    rw [sum_congr rfl fun s hs => by rw [hr s (mem_range.1 hs), sub_zero]]]
  simp only [sum_mul, mul_sum]
  refine sum_congr rfl fun t _ => sum_congr rfl fun s _ => by ring

variable {eR eX eU eZ : Nat → List Nat} (heR : ∀ k, IsSchedule (eR k) (M.size (M.part k)))
  {sv sx su sz : Sched} {wv : Nat} {S : List (List ℝ)} {z x : List ℝ}
include hM heR

/-- **C53**: without reference strain, the value of `InternalElasticEnergy` is the sum over the steps of
the quadratic form of the stiffness, taken half. -/
theorem C53_energy_value (hr : ∀ k t, k < M.domains.length → t < numVoigt (P k).d → (P k).refStrain t = 0)
    (half dt : ℝ) (hS : ∀ u ∈ S, u.length = M.nn * M.ndof) (hz : z.length = M.nn) (hx : x.length = M.nn * M.dim)
    (hsv : sv.Ok M S.length wv) :
    physicsValue M (elasticEnergy abs half P eR) Post.none sv S z x dt =
      .ok (∑ t ∈ range S.length, half * energyForm M P z x (at0 (S[t]?.getD [])) (at0 (S[t]?.getD []))) := by
  rw [value_of_form hM (energy_computes h heR half dt) (energy_local h half) hS hz hx hsv]
  congr 1
  show ∑ k ∈ range M.domains.length, _ = _
  rw [sum_comm]
  refine sum_congr rfl fun t _ => ?_
  unfold energyForm
  simp only [mul_sum]
  refine sum_congr rfl fun k hk => sum_congr rfl fun c _ => ?_
  exact energyOf_eq (hr k · (mem_range.1 hk)) half _ _ _

/-- **C53**: the energy is not negative, for a positive semidefinite stiffness. -/
theorem C53_energy_nonneg (hr : ∀ k t, k < M.domains.length → t < numVoigt (P k).d → (P k).refStrain t = 0)
    {half dt : ℝ} (hh : 0 ≤ half) (hS : ∀ u ∈ S, u.length = M.nn * M.ndof) (hz : z.length = M.nn)
    (hx : x.length = M.nn * M.dim) (hsv : sv.Ok M S.length wv)
    (hw : ∀ k, k < M.domains.length → 0 ≤ (P k).cubWeight)
    (hp : ∀ k c, k < M.domains.length → c < M.size (M.part k) →
      0 ≤ (P k).pen (meanDensity ((P k).d + 1) (M.cellZ z (gcell (M.part k) c))))
    (hC : ∀ k e, k < M.domains.length → 0 ≤ voigtEnergy (P k) e) :
    ∃ v, physicsValue M (elasticEnergy abs half P eR) Post.none sv S z x dt = .ok v ∧ 0 ≤ v :=
  ⟨_, C53_energy_value hM h heR hr half dt hS hz hx hsv,
    sum_nonneg fun t _ => mul_nonneg hh (energyForm_nonneg hw hp hC _)⟩

end Energy

section Gradient
variable {M : FeModel} (hM : M.Ok) {P : Nat → Elastostatic ℝ} (h : ResOk M P) {penF : Nat → Fad → Fad}
include h

theorem ResOk.mechOk : MechOk M P := ⟨h.dim, h.ndof, h.d⟩

variable {eR eX eU eZ : Nat → List Nat} (heR : ∀ k, IsSchedule (eR k) (M.size (M.part k)))
  (heX : ∀ k, IsSchedule (eX k) (M.size (M.part k))) (heU : ∀ k, IsSchedule (eU k) (M.size (M.part k)))
  (heZ : ∀ k, IsSchedule (eZ k) (M.size (M.part k)))
  {sv sx su sz : Sched} {wv : Nat} {z : Fin M.nn → ℝ} {x : Fin (M.nn * M.dim) → ℝ} {u : Fin (M.nn * M.ndof) → ℝ}
include hM heR heX heU heZ

/-- **C53**: with a symmetric stiffness and no reference strain, `gradient_u` of the elastic energy is
the internal force: the residual at `u` less the residual at zero.  The compliance problem is
self-adjoint. -/
theorem C53_energy_gradient (hr : ∀ k t, k < M.domains.length → t < numVoigt (P k).d → (P k).refStrain t = 0)
    (hsym : ∀ k t s, t < numVoigt (P k).d → s < numVoigt (P k).d → (P k).stiff t s = (P k).stiff s t) (dt : ℝ)
    (hgood : ∀ c, c < M.nc → goodCell M P penF (M.cellZ (List.ofFn z) c) (M.cellX (List.ofFn x) c))
    (hsv : sv.Ok M 1 wv) (hsx : sx.Ok M 1 (M.npc * M.dim)) (hsu : su.Ok M 1 (M.npc * M.ndof))
    (hsz : sz.Ok M 1 (M.npc * 1))
    {init : Nat → Nat → Nat → Nat} {e : Nat → Nat → List Nat} (he : ∀ k j, IsSchedule (e k j) (M.size (M.part k)))
    {sch sch0 : Nat → Nat → List Nat} (hs : SchedOk M sch (M.npc * M.ndof)) (hs0 : SchedOk M sch0 (M.npc * M.ndof)) :
    ∃ v v0 g, M.value (elastostatic abs M P init e) sch (List.ofFn u) (List.ofFn z) (List.ofFn x) = .ok v ∧
      M.value (elastostatic abs M P init e) sch0 (List.replicate (M.nn * M.ndof) 0) (List.ofFn z) (List.ofFn x) =
        .ok v0 ∧
      (physicsCriterion M (elasticEnergy abs (1 / 2) P eR)
        (elasticEnergy Fad.fabs (Fad.const (1 / 2)) (fun k => (P k).lift (penF k)) eX)
        (elasticEnergy Fad.fabs (Fad.const (1 / 2)) (fun k => (P k).lift (penF k)) eU)
        (elasticEnergy Fad.fabs (Fad.const (1 / 2)) (fun k => (P k).lift (penF k)) eZ) Post.none sv sx su sz).gradU
        [List.ofFn u] (List.ofFn z) (List.ofFn x) 0 dt = .ok g ∧
      ∀ q, q < M.nn * M.ndof → at0 g q = at0 v q - at0 v0 q := by
  obtain ⟨v, v0, hv, hv0, hwk⟩ := C47_work hM h he (init := init) (u := List.ofFn u) (z := List.ofFn z)
    (x := List.ofFn x) List.length_ofFn List.length_ofFn List.length_ofFn hs hs0
  obtain ⟨f, g, hf, hg, hl, hd⟩ := (C51_energy hM (ResOk.mechOk h) heR heX heU heZ (sv := sv) (sx := sx) (su := su)
    (sz := sz) (1 / 2) dt (S := [List.ofFn u]) (u := u) (j := 0) rfl (by simp) hgood hsv hsx hsu hsz).gradU
  refine ⟨v, v0, g, hv, hv0, hg, fun q hq => ?_⟩
  have hfe : ∀ᶠ y in nhds u, 1 / 2 * energyForm M P (List.ofFn z) (List.ofFn x) (at0 (List.ofFn y))
      (at0 (List.ofFn y)) = f y := by
    filter_upwards [hf] with y hy
    have := C53_energy_value hM (ResOk.mechOk h) heR hr (1 / 2) dt (S := [List.ofFn y]) (z := List.ofFn z)
      (x := List.ofFn x) (sv := sv) (by simp) List.length_ofFn List.length_ofFn hsv
    have hy' : physicsValue M (elasticEnergy abs (1 / 2) P eR) Post.none sv [List.ofFn y] (List.ofFn z)
      (List.ofFn x) dt = .ok (f y) := hy
    rw [this, Res.ok.injEq] at hy'
    rw [← hy']
    simp
  have hd' := hd.congr_of_eventuallyEq hfe
  set w : Fin (M.nn * M.ndof) → ℝ := fun i => (Pi.single q 1 : Nat → ℝ) i with hw
  have hln := hd'.hasLineDerivAt w
  unfold HasLineDerivAt at hln
  have hlin : lin (M.nn * M.ndof) (at0 g) w = at0 g q := by
    rw [lin_apply]
    have := sum_single_right hq (at0 g)
    rw [sum_range] at this
    exact this
  rw [hlin] at hln
  have hexp : ∀ t : ℝ, energyForm M P (List.ofFn z) (List.ofFn x) (at0 (List.ofFn (u + t • w)))
      (at0 (List.ofFn (u + t • w))) =
      energyForm M P (List.ofFn z) (List.ofFn x) (at0 (List.ofFn u)) (at0 (List.ofFn u)) +
        2 * t * energyForm M P (List.ofFn z) (List.ofFn x) (at0 (List.ofFn u)) (Pi.single q 1) +
        t * t * energyForm M P (List.ofFn z) (List.ofFn x) (Pi.single q 1) (Pi.single q 1) := by
    intro t
    have hc : ∀ i, i < M.nn * M.ndof → at0 (List.ofFn (u + t • w)) i =
        1 * at0 (List.ofFn u) i + t * (Pi.single q 1 : Nat → ℝ) i := by
      intro i hi
      simp [at0, hi, hw]
    rw [energyForm_congr hM h hc hc, energyForm_lin, energyForm_symm hsym (at0 (List.ofFn u)),
      energyForm_symm hsym (Pi.single q 1), energyForm_lin, energyForm_lin,
      energyForm_symm hsym (Pi.single q 1) (at0 (List.ofFn u))]
    ring
  have hq2 : HasDerivAt (fun t : ℝ => 1 / 2 * energyForm M P (List.ofFn z) (List.ofFn x) (at0 (List.ofFn (u + t • w)))
      (at0 (List.ofFn (u + t • w))))
      (energyForm M P (List.ofFn z) (List.ofFn x) (at0 (List.ofFn u)) (Pi.single q 1)) 0 := by
    simp only [hexp]
    have h1 := hasDerivAt_id (0 : ℝ)
    have h2 := (((h1.const_mul 2).mul_const
      (energyForm M P (List.ofFn z) (List.ofFn x) (at0 (List.ofFn u)) (Pi.single q 1))).const_add
      (energyForm M P (List.ofFn z) (List.ofFn x) (at0 (List.ofFn u)) (at0 (List.ofFn u)))).add
      ((h1.mul h1).mul_const (energyForm M P (List.ofFn z) (List.ofFn x) (Pi.single q 1) (Pi.single q 1)))
    refine (h2.const_mul (1 / 2 : ℝ)).congr_deriv ?_
    simp
  have := hln.unique hq2
  rw [this]
  have hwq := hwk (Pi.single q 1)
  rw [sum_single_right hq, sum_single_right hq] at hwq
  linarith

end Gradient

/-! ## Volume -/

section Volume
variable {M : FeModel} (hM : M.Ok) (hdim : M.dim = 1 ∨ M.dim = 2 ∨ M.dim = 3)

/-- The quadrature weight the constructors compute is the volume of the reference simplex. -/
theorem C53_weight (d : Nat) : quadratureWeight d = .ok (1 / (d.factorial : ℝ)) := by
  unfold quadratureWeight
  rcases d with _ | d
  · show Res.ok (1 : ℝ) = _
    norm_num
  · obtain ⟨w, e, hw⟩ := forRange_inv (lo := 2) (hi := d + 1 + 1) (s := (1 : ℝ))
      (body := fun i w => pure (w / (i : ℝ))) (fun k w => w = 1 / ((k - 1).factorial : ℝ)) (by omega) (by simp)
      (by
        rintro k w hk _ rfl
        refine Res.Sat.ok ?_
        obtain ⟨m, rfl⟩ : ∃ m, k = m + 1 := ⟨k - 1, by omega⟩
        rw [Nat.add_sub_cancel, Nat.add_sub_cancel, Nat.factorial_succ, div_div]
        push_cast
        rw [mul_comm])
    rw [e, hw]
    rfl

/-- Corners of a cell. -/
def corners (M : FeModel) (x : List ℝ) (cell : Nat) : Fin (M.dim + 1) → Fin M.dim → ℝ :=
  nodes M.dim (M.cellX x cell)

include hdim in
theorem volume_local (weight : Nat → ℝ) (pen : Nat → ℝ → ℝ) :
    FormLocal M fun k _ Z X => volumeOf abs M.dim (weight k) (pen k) Z X := by
  intro k U U' Z Z' X X' hk hU hZ hX
  dsimp only
  unfold volumeOf
  rw [detForm_congr hdim hX, meanDensity_congr (npc := M.dim + 1) hZ]

include hM hdim in
/-- **C53**: the volume criterion with the weight of the constructor is the sum over the cells of their
volume times the penalised density; it counts every step of the solution. -/
theorem C53_volume {pen : Nat → ℝ → ℝ} {weight : Nat → ℝ} (hw : ∀ k, quadratureWeight M.dim = .ok (weight k))
    {eR : Nat → List Nat} (heR : ∀ k, IsSchedule (eR k) (M.size (M.part k))) {S : List (List ℝ)} {z x : List ℝ}
    {sv : Sched} {wv : Nat} (dt : ℝ) (hS : ∀ u ∈ S, u.length = M.nn * M.ndof) (hz : z.length = M.nn)
    (hx : x.length = M.nn * M.dim) (hsv : sv.Ok M S.length wv) :
    physicsValue M (volumeEval abs M.dim weight pen eR) Post.none sv S z x dt = .ok (S.length *
      ∑ k ∈ range M.domains.length, ∑ c ∈ range (M.size (M.part k)),
        MeasureTheory.volume.real (convexHull ℝ (Set.range (corners M x (gcell (M.part k) c)))) *
          pen k (meanDensity (M.dim + 1) (M.cellZ z (gcell (M.part k) c)))) := by
  rw [value_of_form hM (volume_computes hdim abs heR dt) (volume_local hdim weight pen) hS hz hx hsv]
  congr 1
  show ∑ k ∈ range M.domains.length, _ = _
  rw [sum_comm, sum_const, card_range, nsmul_eq_mul]
  congr 1
  refine sum_congr rfl fun k _ => sum_congr rfl fun c _ => ?_
  have := hw k
  rw [C53_weight, Res.ok.injEq] at this
  unfold volumeOf corners
  rw [← this, volume_simplex, ← detForm_eq hdim]
  ring

end Volume

end Plato.Crit
