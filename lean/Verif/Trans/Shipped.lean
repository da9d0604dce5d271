import Verif.Trans.Props

/-!
# C89 for the criteria that exist
-/

namespace Plato.Trans
open Finset Plato Plato.Mech Plato.Crit Plato.Thermal Filter Topology

section State
variable {M : FeModel} (hM : M.Ok) {F T : Nat} {H : List (List (List ℝ))} (hH : HistOk M F H T) {dt : ℝ}
  {sv sx su sz : TSched} {wv : Nat} (hsv : sv.Ok M F (T - 1) wv) (hsx : sx.Ok M F (T - 1) (M.npc * M.dim))
  (hsu : su.Ok M F 1 (M.npc * M.ndof)) (hsz : sz.Ok M F (T - 1) (M.npc * 1))
  {z : Fin M.nn → ℝ} {x : Fin (M.nn * M.dim) → ℝ} {f j : Nat} {u : Fin (M.nn * M.ndof) → ℝ} (hf : f < F) (hj0 : 0 < j)
  (hjT : j < T) (hj : stateAt H f j = List.ofFn u)
include hM hH hsv hsx hsu hsz hf hj0 hjT hj

/-- The four gradients of a criterion of transient problems: configuration, control (read as in the parabolic and as
in the hyperbolic class) and any field at any step after the first. -/
theorem C89_state_gradients {evR : ScalarEvaluator ℝ} {evF : ScalarEvaluator Fad}
    {good : (Nat → ℝ) → (Nat → ℝ) → (Nat → Nat → ℝ) → Prop} (hg : CritLocal M good)
    (hev : ∀ {m : Nat} (p : Fin m → ℝ), CritTracks M evR evF good dt p)
    (hgood : ∀ t, 0 < t → t < T → ∀ c, c < M.nc →
      good (cellS M (stateAt H 0 t) c) (M.cellZ (List.ofFn z) c) (M.cellX (List.ofFn x) c))
    {post : Post} (hone : T = 2 ∨ post = Post.none)
    (hp : ∀ m v, transValue M F (ofState evR) Post.none sv H (List.ofFn z) (List.ofFn x) dt = .ok v → post.Ok m v) :
    Reports (M.nn * M.dim) (fun y => transValue M F (ofState evR) post sv H (List.ofFn z) y dt)
      (transGradX M F (ofState evF) post sx H (List.ofFn z) (List.ofFn x) dt) x ∧
    Reports M.nn (fun y => transValue M F (ofState evR) post sv H y (List.ofFn x) dt)
      (transGradZ M F (ofState evF) post sz lateRate H (List.ofFn z) (List.ofFn x) dt) z ∧
    Reports M.nn (fun y => transValue M F (ofState evR) post sv H y (List.ofFn x) dt)
      (transGradZ M F (ofState evF) post sz sameStep H (List.ofFn z) (List.ofFn x) dt) z ∧
    Reports (M.nn * M.ndof) (fun y => transValue M F (ofState evR) post sv (setStep H f j y) (List.ofFn z)
      (List.ofFn x) dt) (transGradField M F f (ofState evF) post su H (List.ofFn z) (List.ofFn x) j dt) u := by
  have hl := ofState_local hH.fields hg
  have ht : ∀ {m : Nat} (p : Fin m → ℝ), TTracks M F (ofState evR) (ofState evF) (fun U => good (U 0)) dt p :=
    fun p => ofState_tracks hH.fields (hev p)
  exact ⟨C89_gradient_x hM hH hl hsv List.length_ofFn (ht x) hgood hsx fun v hv => hp _ v hv,
    C89_gradient_z_partial hM hH hl hsv List.length_ofFn (ht z) (.inl (ofState_ignores evF Nat.one_ne_zero)) hgood hsz
      fun v hv => hp _ v hv,
    C89_gradient_z hM hH hl hsv List.length_ofFn (ht z) hgood hsz fun v hv => hp _ v hv,
    C89_gradient_field_partial hM hH hl hsv List.length_ofFn List.length_ofFn hf hj0 hjT hj (ht u) hgood hsu hone
      fun v hv => hp _ v hv⟩

/-- **C89 for the internal thermal energy and the temperature average** of parabolic problems. -/
theorem C89_thermal_gradients {P : Nat → Thermal ℝ} (h : ThermOk M P) {penF : Nat → Fad → Fad}
    {eR eF : Nat → List Nat} (heR : ∀ k, IsSchedule (eR k) (M.size (M.part k)))
    (heF : ∀ k, IsSchedule (eF k) (M.size (M.part k)))
    (hgood : ∀ c, c < M.nc → thermGood M P penF (M.cellZ (List.ofFn z) c) (M.cellX (List.ofFn x) c))
    {evR : ScalarEvaluator ℝ} {evF : ScalarEvaluator Fad}
    (hev : evR = HeatCrit.thermalEnergy abs P eR ∧
        evF = HeatCrit.thermalEnergy Fad.fabs (fun k => (P k).lift (penF k)) eF ∨
      evR = temperatureAverage abs P eR ∧ evF = temperatureAverage Fad.fabs (fun k => (P k).lift (penF k)) eF) :
    Reports (M.nn * M.dim) (fun y => transValue M F (ofState evR) Post.none sv H (List.ofFn z) y dt)
      (transGradX M F (ofState evF) Post.none sx H (List.ofFn z) (List.ofFn x) dt) x ∧
    Reports M.nn (fun y => transValue M F (ofState evR) Post.none sv H y (List.ofFn x) dt)
      (transGradZ M F (ofState evF) Post.none sz lateRate H (List.ofFn z) (List.ofFn x) dt) z ∧
    Reports (M.nn * M.ndof) (fun y => transValue M F (ofState evR) Post.none sv (setStep H f j y) (List.ofFn z)
      (List.ofFn x) dt) (transGradField M F f (ofState evF) Post.none su H (List.ofFn z) (List.ofFn x) j dt) u := by
  have ht : ∀ {m : Nat} (p : Fin m → ℝ), CritTracks M evR evF (fun _ Z X => thermGood M P penF Z X) dt p := by
    intro m p
    rcases hev with ⟨rfl, rfl⟩ | ⟨rfl, rfl⟩
    · exact HeatCrit.energy_tracks h heR heF dt p
    · exact average_tracks h heR heF dt p
  obtain ⟨h1, h2, -, h4⟩ := C89_state_gradients hM hH hsv hsx hsu hsz hf hj0 hjT hj (HeatCrit.good_local h) ht
    (fun t _ _ c hc => hgood c hc) (.inr rfl) fun m v _ => Post.none_ok m v
  exact ⟨h1, h2, h4⟩

/-- **C89 for the internal elastic energy** of hyperbolic problems, the evaluator without factor 1/2. -/
theorem C89_elastic_gradients {P : Nat → Elastostatic ℝ} (h : MechOk M P) {penF : Nat → Fad → Fad}
    {eR eF : Nat → List Nat} (heR : ∀ k, IsSchedule (eR k) (M.size (M.part k)))
    (heF : ∀ k, IsSchedule (eF k) (M.size (M.part k)))
    (hgood : ∀ c, c < M.nc → goodCell M P penF (M.cellZ (List.ofFn z) c) (M.cellX (List.ofFn x) c)) :
    Reports (M.nn * M.dim) (fun y => transValue M F (ofState (elasticEnergy abs 1 P eR)) Post.none sv H (List.ofFn z) y
      dt) (transGradX M F (ofState (elasticEnergy Fad.fabs (Fad.const 1) (fun k => (P k).lift (penF k)) eF)) Post.none
        sx H (List.ofFn z) (List.ofFn x) dt) x ∧
    Reports M.nn (fun y => transValue M F (ofState (elasticEnergy abs 1 P eR)) Post.none sv H y (List.ofFn x) dt)
      (transGradZ M F (ofState (elasticEnergy Fad.fabs (Fad.const 1) (fun k => (P k).lift (penF k)) eF)) Post.none sz
        sameStep H (List.ofFn z) (List.ofFn x) dt) z ∧
    Reports (M.nn * M.ndof) (fun y => transValue M F (ofState (elasticEnergy abs 1 P eR)) Post.none sv
      (setStep H f j y) (List.ofFn z) (List.ofFn x) dt) (transGradField M F f
        (ofState (elasticEnergy Fad.fabs (Fad.const 1) (fun k => (P k).lift (penF k)) eF)) Post.none su H (List.ofFn z)
        (List.ofFn x) j dt) u := by
  obtain ⟨h1, -, h3, h4⟩ := C89_state_gradients hM hH hsv hsx hsu hsz hf hj0 hjT hj (mechLocal h)
    (fun p => energy_tracks h heR heF 1 dt p) (fun t _ _ c hc => hgood c hc) (.inr rfl) fun m v _ => Post.none_ok m v
  exact ⟨h1, h3, h4⟩

end State

/-! ## What the values are -/

section Meaning
variable {M : FeModel} (hM : M.Ok) {F T : Nat} {sv : TSched} {H : List (List (List ℝ))} {z x : List ℝ} {dt : ℝ}
  {w : Nat} (hH : HistOk M F H T) (hz : z.length = M.nn) (hx : x.length = M.nn * M.dim)
  (hsv : sv.Ok M F (T - 1) w)
include hM hH hz hx hsv

/-- The elastic energy of hyperbolic problems is twice the sum over the steps after the first of what the criterion of
steady problems reports. -/
theorem C89_elastic_double {P : Nat → Elastostatic ℝ} (h : MechOk M P) {eR : Nat → List Nat}
    (heR : ∀ k, IsSchedule (eR k) (M.size (M.part k))) {hist : List (List ℝ)} (h0 : H[0]? = some hist) {s : Sched}
    {w' : Nat} (hs : s.Ok M (T - 1) w') :
    ∃ v, physicsValue M (elasticEnergy abs (1 / 2) P eR) Post.none s hist.tail z x dt = .ok v ∧
      transValue M F (ofState (elasticEnergy abs 1 P eR)) Post.none sv H z x dt = .ok (2 * v) := by
  obtain ⟨h', e', hl', hu⟩ := hH.field 0 hH.fields
  rw [h0, Option.some.injEq] at e'
  subst e'
  have ht : hist.tail.length = T - 1 := by rw [List.length_tail, hl']
  have hS : ∀ u ∈ hist.tail, u.length = M.nn * M.ndof := fun u hu' => hu u (List.mem_of_mem_tail hu')
  have hs' : s.Ok M hist.tail.length w' := by rw [ht]; exact hs
  refine ⟨_, value_of_form hM (energy_computes h heR (1 / 2) dt) (energy_local h _) hS hz hx hs' _, ?_⟩
  rw [C89_state_value hM hH hz hx hsv (energy_computes h heR 1 dt) (energy_local h _) _ h0 hs,
    value_of_form hM (energy_computes h heR 1 dt) (energy_local h _) hS hz hx hs' _]
  congr 1
  unfold Post.none
  dsimp only [id]
  simp only [mul_sum]
  refine sum_congr rfl fun k _ => sum_congr rfl fun t _ => sum_congr rfl fun c _ => ?_
  unfold energyOf
  ring

/-- Temperature of a cell: the interpolation at the point of the rule. -/
noncomputable def cellTemperature (P : Thermal ℝ) (U : Nat → ℝ) : ℝ := ∑ a ∈ range (P.d + 1), at0 P.basis a * U a

/-- **The temperature average is not an average**: with the weight of the rule of simplices it is `d!` times the sum
over the steps after the first of the integral of the temperature; nothing is divided by the volume. -/
theorem C89_average_value {P : Nat → Thermal ℝ} (h : ThermOk M P) {eR : Nat → List Nat}
    (heR : ∀ k, IsSchedule (eR k) (M.size (M.part k)))
    (hw : ∀ k, k < M.domains.length → (P k).cubWeight * (Nat.factorial M.dim : ℝ) = 1) :
    transValue M F (ofState (temperatureAverage abs P eR)) Post.none sv H z x dt =
      .ok ((Nat.factorial M.dim : ℝ) * ∑ t ∈ range (T - 1), ∑ k ∈ range M.domains.length,
        ∑ c ∈ range (M.size (M.part k)), (P k).pen (meanDensity (M.dim + 1) (M.cellZ z (gcell (M.part k) c))) *
          cellTemperature (P k) (cellS M (stateAt H 0 (t + 1)) (gcell (M.part k) c)) *
          (P k).volForm abs (M.cellX x (gcell (M.part k) c))) := by
  rw [C89_value hM hH hz hx hsv (ofState_computes hH.fields (average_computes h heR dt))
    (ofState_formLocal hH.fields (average_local h)) Post.none]
  congr 1
  unfold Post.none
  dsimp only [id]
  rw [sum_comm]
  simp only [mul_sum]
  refine sum_congr rfl fun t _ => sum_congr rfl fun k hk => sum_congr rfl fun c _ => ?_
  unfold averageForm cellTemperature Thermal.volForm
  rw [h.d k (mem_range.1 hk)]
  linear_combination -((P k).pen (meanDensity (M.dim + 1) (M.cellZ z (gcell (M.part k) c))) *
    (∑ a ∈ range (M.dim + 1), at0 (P k).basis a * cellS M (stateAt H 0 (t + 1)) (gcell (M.part k) c) a) *
    |detForm M.dim (M.cellX x (gcell (M.part k) c))|) * hw k (mem_range.1 hk)

end Meaning

/-! ## The first step -/

section First
variable {M : FeModel} (hM : M.Ok) {F T : Nat} {H : List (List (List ℝ))} (hH : HistOk M F H T) {dt : ℝ}
  {evR : TEvaluator ℝ} {evF : TEvaluator Fad} {good : (Nat → Nat → ℝ) → (Nat → ℝ) → (Nat → Nat → ℝ) → Prop}
  (hg : TLocal M F good)
include hM hH hg

/-- The gradient with respect to a field at the first step is not zero but the derivative of the cell functions at
that step, which the value does not count (`C89_first_ignored`). -/
theorem C89_first_gradient {form : Nat → (Nat → Nat → ℝ) → (Nat → ℝ) → (Nat → Nat → ℝ) → ℝ}
    (hR : TComputes M F evR dt form) (hl : TFormLocal M F form) {u : Fin (M.nn * M.ndof) → ℝ} {z x : List ℝ}
    (hz : z.length = M.nn) (hx : x.length = M.nn * M.dim) {f : Nat} (hj : stateAt H f 0 = List.ofFn u)
    (hev : TTracks M F evR evF good dt u)
    (hgood : ∀ c, c < M.nc → good (cellF M (fun f => stateAt H f 0) c) (M.cellZ z c) (M.cellX x c))
    {sg : TSched} (hsg : sg.Ok M F 1 (M.npc * M.ndof)) :
    ∃ g, transGradField M F f evF Post.none sg H z x 0 dt = .ok g ∧ g.length = M.nn * M.ndof ∧
      HasFDerivAt (fun y => ∑ k ∈ range M.domains.length, ∑ c ∈ range (M.size (M.part k)), form k
        (fun g => cellS M (if g = f then List.ofFn y else stateAt H g 0) (gcell (M.part k) c))
        (M.cellZ z (gcell (M.part k) c)) (M.cellX x (gcell (M.part k) c))) (lin (M.nn * M.ndof) (at0 g)) u := by
  have eu : (fun g => if g = f then List.ofFn u else stateAt H g 0) = fun g => stateAt H g 0 := by
    funext g
    split_ifs with h
    · rw [h, hj]
    · rfl
  have hc : ∀ k, ∃ (rF : List Fad) (rR : (Fin (M.nn * M.ndof) → ℝ) → List ℝ), k < M.domains.length →
      cellsT M F (fun g => if g = f then seedOf else constOf) constOf constOf evF k (fun g => stateAt H g 0) z x dt
        = .ok rF ∧
      (∀ y, cellsT M F (fun _ => plainOf) plainOf plainOf evR k
        (fun g => if g = f then List.ofFn y else stateAt H g 0) z x dt = .ok (rR y)) ∧
      rF.length = M.size (M.part k) ∧ (∀ y, (rR y).length = M.size (M.part k)) ∧
      (∀ c, c < M.size (M.part k) → (at0 rF c).val = at0 (rR u) c) ∧
      HasFDerivAt (fun y => ∑ c ∈ range (M.size (M.part k)), at0 (rR y) c)
        (lin _ (scatteredVec M.npc M.ndof M.c2n (M.part k) (M.size (M.part k))
          fun c l => (at0 rF c).dx l)) u := by
    intro k
    by_cases h : k < M.domains.length
    · obtain ⟨rF, rR, h'⟩ := cellsT_deriv hM hg rfl hev
        (uR := fun y g => if g = f then List.ofFn y else stateAt H g 0) (zR := fun _ => z)
        (xR := fun _ => x) (mkS := fun g => if g = f then seedOf else constOf) (mkZ := constOf) (mkX := constOf)
        (by rw [eu]; exact hgood)
        (fun g c l hg' hc hl => by
          simp only [cellF]
          by_cases hgf : g = f
          · simp only [hgf, if_true, cellS, at0_ofFn]
            exact Tracks.seed (L := fun l => coord _ (cellDof M.npc M.ndof M.c2n c l)) hl
          · simp only [hgf, if_false]
            exact Tracks.const _)
        (fun c l _ _ => Tracks.const _) (fun c a k _ _ _ => Tracks.const _) h
      rw [eu] at h'
      exact ⟨rF, rR, fun _ => h'⟩
    · exact ⟨[], fun _ => [], fun h1 => absurd h1 h⟩
  choose rF rR hc using hc
  obtain ⟨g, hlg, hq, hgr⟩ := gradT_ok hM hH hz hx (d := M.ndof) (dt := dt) (ev := evF) Post.none (pick := sameStep)
    (steps := [0]) (sc := sg) (mkS := fun g => if g = f then seedOf else constOf) (mkZ := constOf) (mkX := constOf)
    (fun f t _ ht => by rw [List.mem_singleton.1 ht]; exact hH.steps) hsg
    (r := fun k _ => rF k)
    (fun k t ht hk => by
      have : t = 0 := by simpa using ht
      subst this
      exact (hc k hk).1) (fun k t hk _ => (hc k hk).2.2.1)
  simp only [List.length_singleton, range_one, sum_singleton] at hq hgr
  refine ⟨g, by unfold transGradField; rw [hgr]; rfl, hlg, ?_⟩
  have hd : HasFDerivAt (fun y => ∑ k ∈ range M.domains.length, ∑ c ∈ range (M.size (M.part k)), at0 (rR k y) c)
      (lin (M.nn * M.ndof) (at0 g)) u := by
    refine (HasFDerivAt.fun_sum fun k hk => (hc k (mem_range.1 hk)).2.2.2.2.2).congr_fderiv ?_
    rw [← lin_coord (at0 g)]
    simp only [hq, sum_smul]
    symm
    rw [sum_comm]
    exact sum_congr rfl fun k _ => lin_coord _
  refine hd.congr_of_eventuallyEq (Filter.Eventually.of_forall fun y => ?_)
  refine sum_congr rfl fun k hk => sum_congr rfl fun c hc' => ?_
  have hk' := mem_range.1 hk
  obtain ⟨r, e, l, q⟩ := hR k (gatherF M F (fun _ => plainOf) k fun g => if g = f then List.ofFn y else stateAt H g 0)
    (gather plainOf M.npc 1 M.c2n (domCells M k) z) (gatherX plainOf M.npc M.dim M.c2n (domCells M k) x) hk'
    (fun f hf => gatherF_ok hk' _ _ _ _ _ _ hf)
  have e2 := (hc k hk').2.1 y
  unfold cellsT at e2
  rw [← size_eq hk', e, Res.ok.injEq] at e2
  rw [← e2, q c (mem_range.1 hc')]
  symm
  exact hl k _ _ _ _ _ _ hk' (fun f l hf hl => gatherF_e hk' _ _ hf (mem_range.1 hc') hl)
    (fun a ha => gatherZ_e hk' _ _ (mem_range.1 hc') ha)
    (fun a i ha hi => gatherX_e hk' _ _ (mem_range.1 hc') ha hi)

end First

end Plato.Trans
