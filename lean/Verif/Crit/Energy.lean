import Verif.Crit.Physics
import Verif.Mech.Elastic

/-!
# The criteria of linear elasticity as evaluators

Closed forms of the cell results of `InternalElasticEnergy`, `Volume` and `StressPNorm`, and the proof
that automatic differentiation follows them.
-/

namespace Plato.Crit
open Finset Plato Plato.Mech

section Loops
variable {R : Type} [CommRing R] [Div R] (fabs : R → R) {P : Elastostatic R}
  (hd : P.d = 1 ∨ P.d = 2 ∨ P.d = 3) {nc : Nat} {state control : V2 R} {config : V3 R}

/-- Stress of the solid weighted with the penalised density. -/
def weightedStress (P : Elastostatic R) (U Z : Nat → R) (X : Nat → Nat → R) (t : Nat) : R :=
  P.solidStress U X t * P.pen (meanDensity (P.d + 1) Z)

/-- Elastic energy of a cell. -/
def energyOf (half : R) (P : Elastostatic R) (U Z : Nat → R) (X : Nat → Nat → R) : R :=
  half * (∑ t ∈ range (numVoigt P.d), weightedStress P U Z X t * P.strainForm U X t) * P.volForm fabs X

include hd in
theorem weightedStressCell_ok (hw : WsOk P.d P.d nc state control config) {c : Nat} (hc : c < nc) {w : Views R}
    (h : w.Ok P.d nc) (hz : ∀ t, w.strain.e c t = 0) :
    (weightedStressCell fabs P state control config c w).Sat fun w' => w'.Ok P.d nc ∧
      (at0 w'.vol c = P.volForm fabs (config.e c) ∧
      (∀ t, t < numVoigt P.d → w'.strain.e c t = P.strainForm (state.e c) (config.e c) t) ∧
      ∀ t, t < numVoigt P.d → w'.stress.e c t = weightedStress P (state.e c) (control.e c) (config.e c) t) ∧
      ∀ r, r ≠ c → at0 w'.vol r = at0 w.vol r ∧ w'.strain.e r = w.strain.e r ∧ w'.stress.e r = w.stress.e r := by
  unfold weightedStressCell
  refine Res.Sat.bind (stressCell_ok fabs hd hw hc h hz) ?_
  rintro w1 ⟨hok, hp, hf⟩
  have a0 := hw.z0
  have a1 := hw.z1
  have b0 := hok.s0
  have b1 := hok.s1
  rw [applyWeighting_ok (by omega) a1 (by omega) (by omega), Res.ok_bind]
  refine Res.Sat.ok ⟨⟨hok.g0, hok.g1, hok.g2, hok.v, hok.e0, hok.e1, hok.s0, hok.s1⟩, ⟨hp.vol, hp.strain, ?_⟩, ?_⟩
  · intro t ht
    simp only [V2.row, if_true, ht]
    rw [hp.stress t ht]
    rfl
  · intro r hr
    obtain ⟨-, f2, f3, f4⟩ := hf r hr
    refine ⟨f2, f3, ?_⟩
    simp only [V2.row, hr, if_false]
    exact f4

include hd in
/-- `InternalElasticEnergy::evaluate`. -/
theorem energy_ok (half : R) (hw : WsOk P.d P.d nc state control config) {order : List Nat}
    (hs : IsSchedule order nc) {result : List R} (hr : result.length = nc) :
    (P.energy fabs half order nc state control config result).Sat fun r => r.length = nc ∧
      ∀ c, c < nc → at0 r c = at0 result c + energyOf fabs half P (state.e c) (control.e c) (config.e c) := by
  unfold Elastostatic.energy
  refine Res.Sat.bind (parFor_sched hs (fun D (s : Views R × List R) => s.1.Ok P.d nc ∧
    (∀ c, c ∉ D → ∀ t, s.1.strain.e c t = 0) ∧ s.2.length = nc ∧ ∀ c, at0 s.2 c = at0 result c +
      if c ∈ D then energyOf fabs half P (state.e c) (control.e c) (config.e c) else 0)
    ⟨Views.new_ok _ _, fun _ _ _ => rfl, hr, by simp⟩ ?_) ?_
  · rintro D c ⟨w, r⟩ hc hD - ⟨hok, hz, hl, hq⟩
    have e : P.energyCell fabs half state control config c (w, r) =
        (weightedStressCell fabs P state control config c w >>= fun w' => do
          let r ← scalarProduct (numVoigt P.d) c r w'.stress w'.strain w'.vol half
          pure (w', r)) := by
      unfold Elastostatic.energyCell weightedStressCell
      cases P.stressCell fabs state config c w with
      | ok w1 =>
        simp only [Res.ok_bind]
        cases applyWeighting (P.d + 1) (numVoigt P.d) P.pen c w1.stress control <;> rfl
      | err m => rfl
      | ub => rfl
    rw [e]
    refine Res.Sat.bind (weightedStressCell_ok fabs hd hw hc hok (hz c hD)) ?_
    rintro w' ⟨hok', ⟨hv, hst, hss⟩, hf⟩
    have b0 := hok'.s0
    have b1 := hok'.s1
    have b2 := hok'.e0
    have b3 := hok'.e1
    have b4 := hok'.v
    dsimp only at hl hq hz
    rw [scalarProduct_ok (by omega) b1.ge (by omega) b3.ge (by omega) (by omega), Res.ok_bind]
    refine Res.Sat.ok ⟨hok', ?_, by rw [List.length_set]; exact hl, ?_⟩
    · intro r' hr' t
      have hne : r' ≠ c := by rintro rfl; exact hr' (mem_insert_self _ _)
      rw [(hf r' hne).2.1]
      exact hz r' (fun h => hr' (mem_insert_of_mem h)) t
    · intro q
      rw [at0_set (by omega)]
      by_cases hqc : q = c
      · subst hqc
        rw [if_pos rfl, if_pos (mem_insert_self _ _), hq q, if_neg hD, add_zero, hv]
        unfold energyOf
        rw [sum_congr rfl fun t ht => by rw [hss t (mem_range.1 ht), hst t (mem_range.1 ht)]]
      · rw [if_neg hqc, hq q]
        simp only [mem_insert, hqc, false_or]
  · rintro ⟨w, r⟩ ⟨-, -, hl, hq⟩
    refine Res.Sat.ok ⟨hl, fun c hc => ?_⟩
    rw [hq c, if_pos (mem_range.2 hc)]

/-- Weighted volume of a cell. -/
def volumeOf (d : Nat) (weight : R) (pen : R → R) (Z : Nat → R) (X : Nat → Nat → R) : R :=
  fabs (detForm d X) * weight * pen (meanDensity (d + 1) Z)

omit [Div R] in
theorem computeCellVolume_form {d c : Nat} {cfg : V3 R} (hd : d = 1 ∨ d = 2 ∨ d = 3) (hc : c < cfg.d0)
    (h1 : cfg.d1 = d + 1) (h2 : cfg.d2 = d) :
    computeCellVolume fabs d c cfg = .ok (fabs (detForm d (cfg.e c))) := by
  have hr : ∀ n i, n < d + 1 → i < d → vrd3 cfg c n i = .ok (cfg.e c n i) := fun n i hn hi =>
    vrd3_ok hc (by omega) (by omega)
  rcases hd with rfl | rfl | rfl
  · simp (disch := omega) only [computeCellVolume, computeCellVolume1, hr, Res.ok_bind, Res.pure_eq]
    rfl
  · simp (disch := omega) only [computeCellVolume, computeCellVolume2, hr, Res.ok_bind, Res.pure_eq]
    rfl
  · simp (disch := omega) only [computeCellVolume, computeCellVolume3, hr, Res.ok_bind, Res.pure_eq]
    rfl

/-- `Volume::evaluate`. -/
theorem volume_ok {d : Nat} (hd : d = 1 ∨ d = 2 ∨ d = 3) (weight : R) (pen : R → R) (hz0 : nc ≤ control.d0)
    (hz1 : d + 1 ≤ control.d1) (hx0 : nc ≤ config.d0) (hx1 : config.d1 = d + 1) (hx2 : config.d2 = d)
    {order : List Nat} (hs : IsSchedule order nc) {result : List R} (hr : result.length = nc) :
    (parFor order result (volumeCell fabs d weight pen control config)).Sat fun r => r.length = nc ∧
      ∀ c, c < nc → at0 r c = volumeOf fabs d weight pen (control.e c) (config.e c) := by
  refine parFor_map hs (fun c _ => volumeOf fabs d weight pen (control.e c) (config.e c)) ?_ hr
  intro c y hc hy
  unfold volumeCell
  rw [computeCellVolume_form fabs hd (by omega) hx1 hx2, Res.ok_bind, wr_eq (by omega), Res.ok_bind,
    cellDensity_ok (by omega) hz1, Res.ok_bind, rd_at0 (by rw [List.length_set]; omega), Res.ok_bind,
    wr_eq (by rw [List.length_set]; omega), at0_set (by omega), if_pos rfl, List.set_set]
  rfl

omit [Div R] in
theorem squareSum_ok {terms c : Nat} {r : List R} {t : V2 R} (hc : c < r.length) (h0 : c < t.d0)
    (h1 : terms ≤ t.d1) :
    squareSum terms c r t = .ok (r.set c (∑ i ∈ range terms, t.e c i * t.e c i)) := by
  unfold squareSum
  rw [wr_eq hc, Res.ok_bind]
  have := forRange_eq (n := terms) (body := fun i (r : List R) => do
    let a ← vrd2 t c i
    let x ← rd r c
    wr r c (x + a * a)) (fun k => r.set c (∑ i ∈ range k, t.e c i * t.e c i)) (by
      intro k hk
      rw [vrd2_ok h0 (by omega), Res.ok_bind, rd_at0 (by rw [List.length_set]; exact hc), Res.ok_bind,
        wr_eq (by rw [List.length_set]; exact hc), at0_set hc, if_pos rfl, List.set_set, sum_range_succ])
  rw [sum_range_zero] at this
  exact this

/-- Norm of a tensor of a cell: what a norm functor writes as a function of the terms and the volume. -/
def NormForm (norm : Nat → Int → Nat → List R → V2 R → List R → Res (List R)) (terms : Nat) (p : Int)
    (form : (Nat → R) → R → R) : Prop :=
  ∀ c r (t : V2 R) vol, c < r.length → c < t.d0 → terms ≤ t.d1 → c < vol.length →
    norm terms p c r t vol = .ok (r.set c (form (t.e c) (at0 vol c)))

/-- `TensorPNormFunctor`. -/
noncomputable def tensorForm (pow : R → ℝ → R) (terms : Nat) (p : Int) (σ : Nat → R) (v : R) : R :=
  pow (∑ i ∈ range terms, σ i * σ i) (p / 2) * v

/-- `WeightedNormFunctor`. -/
noncomputable def weightedForm (pow : R → ℝ → R) (sqrt : R → R) (spw ref : R) (terms : Nat) (p : Int) (σ : Nat → R)
    (v : R) : R :=
  pow (sqrt (spw * ∑ i ∈ range terms, σ i * σ i) / ref) p * v

omit [Div R] in
theorem tensorPNorm_form (pow : R → ℝ → R) (terms : Nat) (p : Int) :
    NormForm (tensorPNormFunctor pow) terms p (tensorForm pow terms p) := by
  intro c r t vol hc h0 h1 hv
  unfold tensorPNormFunctor
  simp (disch := simp [hc]) only [squareSum_ok hc h0 h1, Res.ok_bind, rd_at0, wr_eq, at0_set, if_true,
    List.set_set, rd_at0 hv]
  rfl

theorem weightedNorm_form (pow : R → ℝ → R) (sqrt : R → R) (spw ref : R) (terms : Nat) (p : Int) :
    NormForm (weightedNormFunctor pow sqrt spw ref) terms p (weightedForm pow sqrt spw ref terms p) := by
  intro c r t vol hc h0 h1 hv
  unfold weightedNormFunctor
  simp (disch := simp [hc]) only [squareSum_ok hc h0 h1, Res.ok_bind, rd_at0, wr_eq, at0_set, if_true,
    List.set_set, rd_at0 hv]
  rfl

include hd in
/-- `StressPNorm::evaluate`. -/
theorem stressPNorm_ok {norm : Nat → Int → Nat → List R → V2 R → List R → Res (List R)} {p : Int}
    {form : (Nat → R) → R → R} (hn : NormForm norm (numVoigt P.d) p form)
    (hform : ∀ σ σ' v, (∀ t, t < numVoigt P.d → σ t = σ' t) → form σ v = form σ' v)
    (hw : WsOk P.d P.d nc state control config) {o1 o2 : List Nat}
    (h1 : IsSchedule o1 nc) (h2 : IsSchedule o2 nc) {result : List R} (hr : result.length = nc) :
    (parFor o1 (Views.new P.d nc) (weightedStressCell fabs P state control config) >>= fun w =>
      parFor o2 result fun c r => norm (numVoigt P.d) p c r w.stress w.vol).Sat fun r => r.length = nc ∧
      ∀ c, c < nc → at0 r c = form (weightedStress P (state.e c) (control.e c) (config.e c))
        (P.volForm fabs (config.e c)) := by
  refine Res.Sat.bind (parFor_sched h1 (fun D (w : Views R) => w.Ok P.d nc ∧
    (∀ c, c ∉ D → ∀ t, w.strain.e c t = 0) ∧ ∀ c ∈ D, at0 w.vol c = P.volForm fabs (config.e c) ∧
      ∀ t, t < numVoigt P.d → w.stress.e c t = weightedStress P (state.e c) (control.e c) (config.e c) t)
    ⟨Views.new_ok _ _, fun _ _ _ => rfl, by simp⟩ ?_) ?_
  · rintro D c w hc hD - ⟨hok, hz, hp⟩
    refine (weightedStressCell_ok fabs hd hw hc hok (hz c hD)).mono ?_
    rintro w' ⟨hok', ⟨hv, -, hss⟩, hf⟩
    refine ⟨hok', ?_, ?_⟩
    · intro r' hr' t
      have hne : r' ≠ c := by rintro rfl; exact hr' (mem_insert_self _ _)
      rw [(hf r' hne).2.1]
      exact hz r' (fun h => hr' (mem_insert_of_mem h)) t
    · intro r' hr'
      rcases mem_insert.1 hr' with rfl | hr2
      · exact ⟨hv, hss⟩
      · have hne : r' ≠ c := by rintro rfl; exact hD hr2
        rw [(hf r' hne).1, (hf r' hne).2.2]
        exact hp r' hr2
  · rintro w ⟨hok, -, hp⟩
    have b0 := hok.s0
    have b1 := hok.s1
    have b4 := hok.v
    refine parFor_map h2 (fun c _ => form (weightedStress P (state.e c) (control.e c) (config.e c))
        (P.volForm fabs (config.e c))) ?_ hr
    intro c y hc hy
    rw [hn c y _ _ (by omega) (by omega) (by omega) (by omega), (hp c (mem_range.2 hc)).1,
      hform _ _ _ (hp c (mem_range.2 hc)).2]

end Loops

/-! ## From closed forms to derivatives -/

section Form
variable {M : FeModel}

/-- An evaluator computes a function of the data of each cell. -/
def Computes {R : Type} [Zero R] (M : FeModel) (ev : ScalarEvaluator R) (dt : ℝ)
    (form : Nat → (Nat → R) → (Nat → R) → (Nat → Nat → R) → R) : Prop :=
  ∀ k s z x, k < M.domains.length → PartOk M k s z x →
    (ev k s z x (List.replicate (M.size (M.part k)) 0) dt).Sat fun r => r.length = M.size (M.part k) ∧
      ∀ c, c < M.size (M.part k) → at0 r c = form k (s.e c) (z.e c) (x.e c)

/-- The function of the cell data does not read entries that do not exist. -/
def FormLocal {R : Type} (M : FeModel) (form : Nat → (Nat → R) → (Nat → R) → (Nat → Nat → R) → R) : Prop :=
  ∀ k U U' Z Z' X X', k < M.domains.length → (∀ l, l < M.npc * M.ndof → U l = U' l) →
    (∀ a, a < M.npc → Z a = Z' a) → (∀ a i, a < M.npc → i < M.dim → X a i = X' a i) →
    form k U Z X = form k U' Z' X'

theorem critTracks_of_form {E : Type} [NormedAddCommGroup E] [NormedSpace ℝ E] {evR : ScalarEvaluator ℝ}
    {evF : ScalarEvaluator Fad} {dt : ℝ} {formR : Nat → (Nat → ℝ) → (Nat → ℝ) → (Nat → Nat → ℝ) → ℝ}
    {formF : Nat → (Nat → Fad) → (Nat → Fad) → (Nat → Nat → Fad) → Fad}
    {good : (Nat → ℝ) → (Nat → ℝ) → (Nat → Nat → ℝ) → Prop} {x : E}
    (hR : Computes M evR dt formR) (hF : Computes M evF dt formF)
    (hT : ∀ (k N : Nat) (L : Nat → E →L[ℝ] ℝ) (UF ZF : Nat → Fad) (XF : Nat → Nat → Fad)
      (UR ZR : E → Nat → ℝ) (XR : E → Nat → Nat → ℝ), k < M.domains.length →
      (∀ l, l < M.npc * M.ndof → Tracks L N x (UF l) fun y => UR y l) →
      (∀ a, a < M.npc → Tracks L N x (ZF a) fun y => ZR y a) →
      (∀ a i, a < M.npc → i < M.dim → Tracks L N x (XF a i) fun y => XR y a i) →
      good (UR x) (ZR x) (XR x) →
      Tracks L N x (formF k UF ZF XF) fun y => formR k (UR y) (ZR y) (XR y)) :
    CritTracks M evR evF good dt x := by
  intro k N L sF zF xF sR zR xR hk pF pR hs hz hx hg
  obtain ⟨rF, e1, l1, q1⟩ := hF k sF zF xF hk pF
  have := fun y => hR k (sR y) (zR y) (xR y) hk (pR y)
  choose rR e2 l2 using this
  refine ⟨rF, rR, e1, e2, l1, fun y => (l2 y).1, fun c hc => ?_⟩
  rw [q1 c hc]
  refine (hT k N (L c) _ _ _ (fun y => (sR y).e c) (fun y => (zR y).e c) (fun y => (xR y).e c) hk
    (fun l hl => hs c l hc hl) (fun a ha => hz c a hc ha) (fun a i ha hi => hx c a i hc ha hi) (hg c hc)).congr ?_
  funext y
  exact ((l2 y).2 c hc).symm

/-- The value in closed form. -/
theorem value_of_form (hM : M.Ok) {ev : ScalarEvaluator ℝ} {dt : ℝ}
    {form : Nat → (Nat → ℝ) → (Nat → ℝ) → (Nat → Nat → ℝ) → ℝ} (hR : Computes M ev dt form)
    (hl : FormLocal M form) {S : List (List ℝ)} {z x : List ℝ} (hS : ∀ u ∈ S, u.length = M.nn * M.ndof)
    (hz : z.length = M.nn) (hx : x.length = M.nn * M.dim) {sv : Sched} {w : Nat} (hsv : sv.Ok M S.length w)
    (post : Post) :
    physicsValue M ev post sv S z x dt = .ok (post.val (∑ k ∈ range M.domains.length, ∑ t ∈ range S.length,
      ∑ c ∈ range (M.size (M.part k)), form k (cellS M (S[t]?.getD []) (gcell (M.part k) c))
        (M.cellZ z (gcell (M.part k) c)) (M.cellX x (gcell (M.part k) c)))) := by
  have hc : ∀ k t, ∃ r : List ℝ, ∀ (ht : t < S.length), k < M.domains.length →
      cellsOf M plainOf plainOf plainOf ev k S[t] z x dt = .ok r ∧ r.length = M.size (M.part k) ∧
      ∀ c, c < M.size (M.part k) → at0 r c = form k (cellS M S[t] (gcell (M.part k) c))
        (M.cellZ z (gcell (M.part k) c)) (M.cellX x (gcell (M.part k) c)) := by
    intro k t
    by_cases h : t < S.length ∧ k < M.domains.length
    · have hk := h.2
      have hsz := size_eq hk
      obtain ⟨r, e, l, q⟩ := hR k (gather plainOf M.npc M.ndof M.c2n (domCells M k) S[t])
        (gather plainOf M.npc 1 M.c2n (domCells M k) z) (gatherX plainOf M.npc M.dim M.c2n (domCells M k) x) hk
        ⟨hsz.symm, rfl, hsz.symm, Nat.mul_one _, hsz.symm, rfl, rfl⟩
      refine ⟨r, fun _ _ => ⟨?_, l, fun c hc => ?_⟩⟩
      · unfold cellsOf
        rw [← hsz]
        exact e
      · rw [q c hc]
        refine hl k _ _ _ _ _ _ hk ?_ ?_ ?_
        · intro l hl
          rw [part_eq hk]
          exact if_pos ⟨hsz ▸ hc, hl⟩
        · intro a ha
          rw [part_eq hk]
          unfold FeModel.cellZ
          rw [← cellDof_one]
          exact if_pos ⟨hsz ▸ hc, by rw [Nat.mul_one]; exact ha⟩
        · intro a i ha hi
          rw [part_eq hk]
          exact if_pos ⟨hsz ▸ hc, ha, hi⟩
    · exact ⟨[], fun h1 h2 => absurd ⟨h1, h2⟩ h⟩
  choose r hc using hc
  rw [physicsValue_ok hM hS hz hx hsv post (fun k t ht hk => (hc k t ht hk).1)
    (fun k t hk ht => (hc k t ht hk).2.1)]
  congr 2
  refine sum_congr rfl fun k hk => sum_congr rfl fun t ht => sum_congr rfl fun c hc' => ?_
  rw [(hc k t (mem_range.1 ht) (mem_range.1 hk)).2.2 c (mem_range.1 hc'),
    List.getElem?_eq_getElem (mem_range.1 ht)]
  rfl

end Form

end Plato.Crit
