import Verif.Trans.Deriv
import Verif.HeatCrit.Props
import Verif.Crit.NormProps

/-!
# C89: criteria of transient problems
-/

namespace Plato.Trans
open Finset Plato Plato.Mech Plato.Crit Plato.Thermal Filter Topology

/-! ## Value -/

section Value
variable {M : FeModel} (hM : M.Ok) {F T : Nat} {sv : TSched} {H : List (List (List ℝ))} {z x : List ℝ} {dt : ℝ}
  {w : Nat} (hH : HistOk M F H T) (hz : z.length = M.nn) (hx : x.length = M.nn * M.dim)

/-- An evaluator computes a function of the data of each cell. -/
def TComputes {R : Type} [Zero R] (M : FeModel) (F : Nat) (ev : TEvaluator R) (dt : ℝ)
    (form : Nat → (Nat → Nat → R) → (Nat → R) → (Nat → Nat → R) → R) : Prop :=
  ∀ k s z x, k < M.domains.length → (∀ f, f < F → PartOk M k (s f) z x) →
    (ev k s z x (List.replicate (M.size (M.part k)) 0) dt).Sat fun r => r.length = M.size (M.part k) ∧
      ∀ c, c < M.size (M.part k) → at0 r c = form k (fun f => (s f).e c) (z.e c) (x.e c)

/-- The function of the cell data does not read entries that do not exist. -/
def TFormLocal {R : Type} (M : FeModel) (F : Nat)
    (form : Nat → (Nat → Nat → R) → (Nat → R) → (Nat → Nat → R) → R) : Prop :=
  ∀ k U U' Z Z' X X', k < M.domains.length → (∀ f l, f < F → l < M.npc * M.ndof → U f l = U' f l) →
    (∀ a, a < M.npc → Z a = Z' a) → (∀ a i, a < M.npc → i < M.dim → X a i = X' a i) →
    form k U Z X = form k U' Z' X'

theorem ofState_computes {R : Type} [Zero R] (hF : 0 < F) {ev : ScalarEvaluator R}
    {form : Nat → (Nat → R) → (Nat → R) → (Nat → Nat → R) → R} (h : Computes M ev dt form) :
    TComputes M F (ofState ev) dt fun k U => form k (U 0) :=
  fun k s z x hk hp => h k (s 0) z x hk (hp 0 hF)

theorem ofState_formLocal {R : Type} (hF : 0 < F) {form : Nat → (Nat → R) → (Nat → R) → (Nat → Nat → R) → R}
    (h : FormLocal M form) : TFormLocal M F fun k U => form k (U 0) :=
  fun k _ _ Z Z' X X' hk hU hZ hX => h k _ _ Z Z' X X' hk (fun l hl => hU 0 l hF hl) hZ hX

include hM hH hz hx

/-- **C89, value**: the sum of the cell functions over all domains, cells and steps after the first, then
`postEvaluate`. -/
theorem C89_value (hsv : sv.Ok M F (T - 1) w) {ev : TEvaluator ℝ}
    {form : Nat → (Nat → Nat → ℝ) → (Nat → ℝ) → (Nat → Nat → ℝ) → ℝ} (hR : TComputes M F ev dt form)
    (hl : TFormLocal M F form) (post : Post) :
    transValue M F ev post sv H z x dt = .ok (post.val (∑ k ∈ range M.domains.length, ∑ t ∈ range (T - 1),
      ∑ c ∈ range (M.size (M.part k)), form k (fun f => cellS M (stateAt H f (t + 1)) (gcell (M.part k) c))
        (M.cellZ z (gcell (M.part k) c)) (M.cellX x (gcell (M.part k) c)))) := by
  have hc : ∀ k t, ∃ r : List ℝ, t + 1 < T → k < M.domains.length →
      cellsT M F (fun _ => plainOf) plainOf plainOf ev k (fun f => stateAt H f (t + 1)) z x dt = .ok r ∧
      r.length = M.size (M.part k) ∧
      ∀ c, c < M.size (M.part k) → at0 r c = form k (fun f => cellS M (stateAt H f (t + 1)) (gcell (M.part k) c))
        (M.cellZ z (gcell (M.part k) c)) (M.cellX x (gcell (M.part k) c)) := by
    intro k t
    by_cases hk : k < M.domains.length
    · have hsz := size_eq hk
      obtain ⟨r, e, l, q⟩ := hR k (gatherF M F (fun _ => plainOf) k fun f => stateAt H f (t + 1))
        (gather plainOf M.npc 1 M.c2n (domCells M k) z) (gatherX plainOf M.npc M.dim M.c2n (domCells M k) x) hk
        (fun f hf => gatherF_ok hk _ _ _ _ _ _ hf)
      refine ⟨r, fun _ _ => ⟨?_, l, fun c hc => ?_⟩⟩
      · unfold cellsT
        rw [← hsz]
        exact e
      · rw [q c hc]
        exact hl k _ _ _ _ _ _ hk (fun f l hf hl => gatherF_e hk _ _ hf hc hl) (fun a ha => gatherZ_e hk _ _ hc ha)
          (fun a i ha hi => gatherX_e hk _ _ hc ha hi)
    · exact ⟨[], fun _ h => absurd h hk⟩
  choose r hc using hc
  rw [transValue_ok hM hH hz hx hsv post (fun k t ht hk => (hc k t ht hk).1)
    (fun k t hk ht => (hc k t ht hk).2.1)]
  congr 2
  refine sum_congr rfl fun k hk => sum_congr rfl fun t ht => sum_congr rfl fun c hc' => ?_
  exact (hc k t (by have := mem_range.1 ht; omega) (mem_range.1 hk)).2.2 c (mem_range.1 hc')

/-- **C89, value of criteria of the state only**: that of the criterion of steady problems over the steps after the
first, for which C51, C52 and C87 say what it means. -/
theorem C89_state_value (hsv : sv.Ok M F (T - 1) w) {ev : ScalarEvaluator ℝ}
    {form : Nat → (Nat → ℝ) → (Nat → ℝ) → (Nat → Nat → ℝ) → ℝ} (hR : Computes M ev dt form)
    (hl : FormLocal M form) (post : Post) {h : List (List ℝ)} (h0 : H[0]? = some h) {s : Sched} {w' : Nat}
    (hs : s.Ok M (T - 1) w') :
    transValue M F (ofState ev) post sv H z x dt = physicsValue M ev post s h.tail z x dt := by
  obtain ⟨h', e', hl', hu⟩ := hH.field 0 hH.fields
  rw [h0, Option.some.injEq] at e'
  subst e'
  have ht : h.tail.length = T - 1 := by rw [List.length_tail, hl']
  rw [C89_value hM hH hz hx hsv (ofState_computes hH.fields hR) (ofState_formLocal hH.fields hl) post,
    value_of_form hM hR hl (fun u hu' => hu u (List.mem_of_mem_tail hu')) hz hx (by rw [ht]; exact hs), ht]
  congr 2
  refine sum_congr rfl fun k _ => sum_congr rfl fun t _ => sum_congr rfl fun c _ => ?_
  unfold stateAt
  dsimp only
  rw [h0, List.getElem?_tail]
  rfl

/-- **C89, the first step does not count**: histories that agree after the first step have the same value. -/
theorem C89_first_ignored (hsv : sv.Ok M F (T - 1) w) {ev : TEvaluator ℝ}
    {form : Nat → (Nat → Nat → ℝ) → (Nat → ℝ) → (Nat → Nat → ℝ) → ℝ} (hR : TComputes M F ev dt form)
    (hl : TFormLocal M F form) (post : Post) {H' : List (List (List ℝ))} (hH' : HistOk M F H' T)
    (he : ∀ f t, f < F → 0 < t → t < T → stateAt H' f t = stateAt H f t) :
    transValue M F ev post sv H' z x dt = transValue M F ev post sv H z x dt := by
  rw [C89_value hM hH hz hx hsv hR hl post, C89_value hM hH' hz hx hsv hR hl post]
  congr 2
  refine sum_congr rfl fun k hk => sum_congr rfl fun t ht => sum_congr rfl fun c _ => ?_
  refine hl k _ _ _ _ _ _ (mem_range.1 hk) (fun f l hf _ => ?_) (fun _ _ => rfl) (fun _ _ _ _ => rfl)
  have := mem_range.1 ht
  rw [he f (t + 1) hf (Nat.succ_pos t) (by omega)]

end Value

/-- **C89 is false** without any state: the count of steps is taken from an unsigned number less one. -/
theorem C89_empty_false (M : FeModel) (F : Nat) (ev : TEvaluator ℝ) (evF : TEvaluator Fad) (post : Post) (sc : TSched)
    (Hs : List (List (List ℝ))) (z x : List ℝ) (dt : ℝ) (pick : Nat → Nat → Nat) :
    transValue M F ev post sc ([] :: Hs) z x dt = .ub ∧ transGradX M F evF post sc ([] :: Hs) z x dt = .ub ∧
      transGradZ M F evF post sc pick ([] :: Hs) z x dt = .ub :=
  ⟨rfl, rfl, rfl⟩

/-! ## Gradients -/

section Gradients
variable {M : FeModel} (hM : M.Ok) {F T : Nat} {H : List (List (List ℝ))} (hH : HistOk M F H T) {dt : ℝ}
  {evR : TEvaluator ℝ} {evF : TEvaluator Fad} {good : (Nat → Nat → ℝ) → (Nat → ℝ) → (Nat → Nat → ℝ) → Prop}
  (hg : TLocal M F good) {post : Post} {sv sg : TSched} {wv : Nat} (hsv : sv.Ok M F (T - 1) wv)
include hM hH hg hsv

/-- **C89, configuration.** -/
theorem C89_gradient_x {z : List ℝ} (hz : z.length = M.nn) {x : Fin (M.nn * M.dim) → ℝ}
    (hev : TTracks M F evR evF good dt x)
    (hgood : ∀ t, 0 < t → t < T → ∀ c, c < M.nc →
      good (cellF M (fun f => stateAt H f t) c) (M.cellZ z c) (M.cellX (List.ofFn x) c))
    (hsg : sg.Ok M F (T - 1) (M.npc * M.dim))
    (hp : ∀ v, transValue M F evR Post.none sv H z (List.ofFn x) dt = .ok v → post.Ok (M.nn * M.dim) v) :
    Reports (M.nn * M.dim) (fun y => transValue M F evR post sv H z y dt)
      (transGradX M F evF post sg H z (List.ofFn x) dt) x := by
  obtain ⟨f, g, h1, h2, h3, h4⟩ := reportsT_steps hM hg hH rfl hev (zR := fun _ => z) (xR := fun y => List.ofFn y)
    (fun _ => hz) (fun _ => List.length_ofFn) hgood (mkZ := constOf) (mkX := seedOf)
    (fun c l _ _ => Tracks.const _)
    (fun c a k hc ha hk => by
      have e : M.dim * cellNode M.npc M.c2n c a + k = cellDof M.npc M.dim M.c2n c (a * M.dim + k) := by
        unfold cellDof
        rw [Nat.mul_comm a, div_block hk, Nat.mul_add_mod, Nat.mod_eq_of_lt hk]
      simp only [FeModel.cellX, at0_ofFn, e]
      exact Tracks.seed (L := fun l => coord _ (cellDof M.npc M.dim M.c2n c l))
        (by rw [Nat.mul_comm a]; exact block_lt hk ha)) hsv hsg (pick := sameStep) (fun f t _ _ h => h)
    (fun k t _ _ => rfl) hp
  exact ⟨f, g, Filter.Eventually.of_forall h1, h2, h3, h4⟩

/-- Gradient with respect to control, when what is read of the fields does not matter. -/
theorem gradient_z_of_pick {z : Fin M.nn → ℝ} {x : List ℝ} (hx : x.length = M.nn * M.dim)
    (hev : TTracks M F evR evF good dt z)
    (hgood : ∀ t, 0 < t → t < T → ∀ c, c < M.nc →
      good (cellF M (fun f => stateAt H f t) c) (M.cellZ (List.ofFn z) c) (M.cellX x c))
    (hsg : sg.Ok M F (T - 1) (M.npc * 1))
    {pick : Nat → Nat → Nat} (hpl : ∀ f t, f < F → 0 < t → t < T → pick f t < T)
    (hpick : ∀ k t, 0 < t → t < T → cellsT M F (fun _ => constOf) seedOf constOf evF k
      (fun f => stateAt H f (pick f t)) (List.ofFn z) x dt =
        cellsT M F (fun _ => constOf) seedOf constOf evF k (fun f => stateAt H f t) (List.ofFn z) x dt)
    (hp : ∀ v, transValue M F evR Post.none sv H (List.ofFn z) x dt = .ok v → post.Ok M.nn v) :
    Reports M.nn (fun y => transValue M F evR post sv H y x dt)
      (transGradZ M F evF post sg pick H (List.ofFn z) x dt) z := by
  obtain ⟨f, g, h1, h2, h3, h4⟩ := reportsT_steps hM hg hH (Nat.mul_one _).symm hev (zR := fun y => List.ofFn y)
    (xR := fun _ => x) (fun _ => List.length_ofFn) (fun _ => hx) hgood (mkZ := seedOf) (mkX := constOf)
    (fun c l hc hl => by
      simp only [FeModel.cellZ, at0_ofFn, ← cellDof_one M.npc M.c2n c l]
      exact Tracks.seed (L := fun l => coord _ (cellDof M.npc 1 M.c2n c l)) (by omega))
    (fun c a k _ _ _ => Tracks.const _) hsv hsg hpl hpick hp
  exact ⟨f, g, Filter.Eventually.of_forall h1, h2, h3, h4⟩

/-- **C89, control**, as the hyperbolic class reads the fields. -/
theorem C89_gradient_z {z : Fin M.nn → ℝ} {x : List ℝ} (hx : x.length = M.nn * M.dim)
    (hev : TTracks M F evR evF good dt z)
    (hgood : ∀ t, 0 < t → t < T → ∀ c, c < M.nc →
      good (cellF M (fun f => stateAt H f t) c) (M.cellZ (List.ofFn z) c) (M.cellX x c))
    (hsg : sg.Ok M F (T - 1) (M.npc * 1))
    (hp : ∀ v, transValue M F evR Post.none sv H (List.ofFn z) x dt = .ok v → post.Ok M.nn v) :
    Reports M.nn (fun y => transValue M F evR post sv H y x dt)
      (transGradZ M F evF post sg sameStep H (List.ofFn z) x dt) z :=
  gradient_z_of_pick hM hH hg hsv hx hev hgood hsg (fun _ _ _ _ h => h) (fun _ _ _ _ => rfl) hp

/-- **C89, control**, as the parabolic class reads the fields: for criteria that do not read the rate, or with rates
that do not change from step to step.  See `C89_late_rate_false`. -/
theorem C89_gradient_z_partial {z : Fin M.nn → ℝ} {x : List ℝ} (hx : x.length = M.nn * M.dim)
    (hev : TTracks M F evR evF good dt z)
    (hrate : Ignores evF 1 ∨ ∀ t, 0 < t → t < T → stateAt H 1 (t - 1) = stateAt H 1 t)
    (hgood : ∀ t, 0 < t → t < T → ∀ c, c < M.nc →
      good (cellF M (fun f => stateAt H f t) c) (M.cellZ (List.ofFn z) c) (M.cellX x c))
    (hsg : sg.Ok M F (T - 1) (M.npc * 1))
    (hp : ∀ v, transValue M F evR Post.none sv H (List.ofFn z) x dt = .ok v → post.Ok M.nn v) :
    Reports M.nn (fun y => transValue M F evR post sv H y x dt)
      (transGradZ M F evF post sg lateRate H (List.ofFn z) x dt) z := by
  refine gradient_z_of_pick hM hH hg hsv hx hev hgood hsg (fun f t _ h0 h => ?_) (fun k t h0 h => ?_) hp
  · unfold lateRate
    split_ifs <;> omega
  · rcases hrate with hi | hr
    · unfold cellsT
      refine hi _ _ _ _ _ _ _ fun g hg' => ?_
      unfold gatherF
      dsimp only
      unfold lateRate
      rw [if_neg hg']
    · congr 1
      funext f
      unfold lateRate
      split_ifs with hf
      · rw [hf]
        exact hr t h0 h
      · rfl

/-- **C89, fields**: state, rate or acceleration at a step after the first.  With more than one such step this holds
for criteria without `postEvaluate`. -/
theorem C89_gradient_field_partial {u : Fin (M.nn * M.ndof) → ℝ} {z x : List ℝ} (hz : z.length = M.nn)
    (hx : x.length = M.nn * M.dim) {f j : Nat} (hf : f < F) (hj0 : 0 < j) (hjT : j < T)
    (hj : stateAt H f j = List.ofFn u) (hev : TTracks M F evR evF good dt u)
    (hgood : ∀ t, 0 < t → t < T → ∀ c, c < M.nc →
      good (cellF M (fun f => stateAt H f t) c) (M.cellZ z c) (M.cellX x c))
    (hsg : sg.Ok M F 1 (M.npc * M.ndof)) (hone : T = 2 ∨ post = Post.none)
    (hp : ∀ v, transValue M F evR Post.none sv H z x dt = .ok v → post.Ok (M.nn * M.ndof) v) :
    Reports (M.nn * M.ndof) (fun y => transValue M F evR post sv (setStep H f j y) z x dt)
      (transGradField M F f evF post sg H z x j dt) u := by
  obtain ⟨v, g, h1, h2, h3, h4⟩ := reportsT_field hM hg hH hev hf hj0 hjT hj hz hx hgood hsv hsg hone hp
  exact ⟨v, g, Filter.Eventually.of_forall h1, h2, h3, h4⟩

end Gradients

/-! ## The temperature average -/

section Average
variable {R : Type} [CommRing R]

theorem forRange_one {σ : Type} (s : σ) (b : Nat → σ → Res σ) : forRange 0 1 s b = b 0 s := by
  show (b 0 s >>= fun s => Res.ok s) = _
  cases b 0 s <;> rfl

/-- The interpolated value. -/
theorem stateValues_ok {c n : Nat} {basis : List R} {state out : V2 R} (hb : basis.length = n) (hc : c < out.d0)
    (h1 : out.d1 = 1) (hs : c < state.d0) (hs1 : n ≤ state.d1) :
    stateValues c basis state out = .ok (out.row c fun t => if t = 0 then
      ∑ a ∈ range n, at0 basis a * state.e c a else out.e c t) := by
  obtain ⟨o0, o1, oe⟩ := out
  dsimp only at h1 hc
  subst h1
  unfold stateValues
  rw [hb, forRange_one]
  let y : V2 R := ⟨o0, 1, oe⟩
  have e0 : vwr2 y c 0 0 = .ok (y.row c fun t => if t = 0 then 0 else oe c t) := by
    unfold vwr2
    rw [if_pos ⟨hc, Nat.one_pos⟩]
    congr 1
    unfold V2.row
    rw [V2.mk.injEq]
    refine ⟨rfl, rfl, ?_⟩
    funext r s
    by_cases hr : r = c
    · subst hr; by_cases hs : s = 0 <;> simp [hs, y]
    · simp [hr]
  rw [show (⟨o0, 1, oe⟩ : V2 R) = y from rfl, e0, Res.ok_bind]
  refine (forRange_addrow (y := y) (c := c) (n := n) (fun a => Pi.single 0 (at0 basis a * state.e c a)) _ ?_).trans ?_
  · intro k f hk
    show forRange 0 1 _ _ = _
    rw [forRange_one, rd_at0 (by omega), Res.ok_bind, show (y.row c f).d1 * k + 0 = k by
      show 1 * k + 0 = k; omega, vrd2_ok hs (by omega), Res.ok_bind, accum2_row (y := y) hc Nat.one_pos]
  · congr 2
    funext t
    simp only [Pi.add_apply, Finset.sum_apply]
    by_cases ht : t = 0
    · subst ht; simp
    · simp [ht, y]

variable [Div R] (fabs : R → R)

/-- Temperature of a cell times penalised density times volume of the parallelepiped on its edges. -/
def averageForm (P : Thermal R) (U Z : Nat → R) (X : Nat → Nat → R) : R :=
  P.pen (meanDensity (P.d + 1) Z) * (∑ a ∈ range (P.d + 1), at0 P.basis a * U a) * fabs (detForm P.d X)

theorem weightCopy_ok {npc c : Nat} {pen : R → R} {inp out control : V2 R} (hz : c < control.d0)
    (hz1 : npc ≤ control.d1) (hi : c < inp.d0) (hi1 : inp.d1 = 1) (ho : c < out.d0) (ho1 : out.d1 = 1) :
    weightCopy npc 1 pen c inp out control = .ok (out.row c fun t => if t = 0 then
      pen (meanDensity npc (control.e c)) * inp.e c 0 else out.e c t) := by
  unfold weightCopy
  rw [cellDensity_ok hz hz1, Res.ok_bind, forRange_one, vrd2_ok hi (by omega), Res.ok_bind]
  unfold vwr2
  rw [if_pos ⟨ho, by omega⟩]
  congr 1
  unfold V2.row
  rw [V2.mk.injEq]
  refine ⟨rfl, rfl, ?_⟩
  funext r s
  by_cases hr : r = c
  · subst hr; by_cases hs : s = 0 <;> simp [hs]
  · simp [hr]

variable {fabs} {P : Thermal R} (hd : P.d = 1 ∨ P.d = 2 ∨ P.d = 3) {nc : Nat} {state control : V2 R} {config : V3 R}
include hd

theorem averageCells_ok (hb : P.basis.length = P.d + 1) (hw : WsOk P.d 1 nc state control config) {order : List Nat}
    (hs : IsSchedule order nc) {result : List R} (hr : result.length = nc) :
    (parFor order (⟨nc, 1, fun _ _ => 0⟩, ⟨nc, 1, fun _ _ => 0⟩, result)
      (averageCell fabs P state control config)).Sat fun p => p.2.2.length = nc ∧
      ∀ c, c < nc → at0 p.2.2 c = averageForm fabs P (state.e c) (control.e c) (config.e c) := by
  obtain ⟨a0, a1, b0, b1, x0, x1, x2⟩ := hw
  refine (parFor_sched hs (fun D (p : V2 R × V2 R × List R) => (p.1.d0 = nc ∧ p.1.d1 = 1) ∧
    (p.2.1.d0 = nc ∧ p.2.1.d1 = 1) ∧ p.2.2.length = nc ∧
    ∀ c ∈ D, at0 p.2.2 c = averageForm fabs P (state.e c) (control.e c) (config.e c))
    ⟨⟨rfl, rfl⟩, ⟨rfl, rfl⟩, hr, by simp⟩ ?_).mono ?_
  · rintro D c ⟨t, w, r⟩ hc hD - ⟨⟨t0, t1⟩, ⟨w0, w1⟩, hl, hp⟩
    dsimp only at t0 t1 w0 w1 hl hp
    unfold averageCell
    dsimp only
    rw [computeCellVolume_form fabs hd (by omega) x1 x2, Res.ok_bind,
      stateValues_ok (n := P.d + 1) hb (by omega) t1 (by omega) (by omega), Res.ok_bind,
      weightCopy_ok (inp := V2.row t c _) (by omega) (by omega) (by show c < t.d0; omega) t1 (by omega) w1, Res.ok_bind,
      vrd2_ok (by show c < w.d0; omega) (by show 0 < w.d1; omega), Res.ok_bind, wr_eq (by omega), Res.ok_bind]
    refine Res.Sat.ok ⟨⟨t0, t1⟩, ⟨w0, w1⟩, by rw [List.length_set]; exact hl, fun c' hc' => ?_⟩
    dsimp only
    rw [at0_set (by omega)]
    split_ifs with h
    · subst h
      simp only [V2.row, if_true, averageForm]
    · exact hp c' ((mem_insert.1 hc').resolve_left h)
  · rintro ⟨t, w, r⟩ ⟨-, -, hl, hp⟩
    exact ⟨hl, fun c hc => hp c (mem_range.2 hc)⟩

end Average

section AverageProps
variable {M : FeModel} {P : Nat → Thermal ℝ} (h : ThermOk M P) {penF : Nat → Fad → Fad}
  {eR eF : Nat → List Nat} (heR : ∀ k, IsSchedule (eR k) (M.size (M.part k)))
  (heF : ∀ k, IsSchedule (eF k) (M.size (M.part k)))
include h

include heR in
theorem average_computes (dt : ℝ) : Computes M (temperatureAverage abs P eR) dt
    fun k U Z X => averageForm abs (P k) U Z X := by
  intro k s z x hk hp
  have := averageCells_ok (fabs := abs) (HeatCrit.d3 h hk) (by rw [h.basis k hk, h.d k hk]) (HeatCrit.wsOk h hk hp)
    (order := eR k) (by rw [hp.s0]; exact heR k) (result := List.replicate (M.size (M.part k)) 0)
    (by rw [List.length_replicate, hp.s0])
  rw [← hp.s0] at this ⊢
  unfold temperatureAverage
  refine Res.Sat.bind this ?_
  rintro ⟨t, w, r⟩ hr
  exact Res.Sat.ok hr

include heF in
theorem average_computes_fad (dt : ℝ) :
    Computes M (temperatureAverage Fad.fabs (fun k => (P k).lift (penF k)) eF) dt
      fun k U Z X => averageForm Fad.fabs ((P k).lift (penF k)) U Z X := by
  intro k s z x hk hp
  have := averageCells_ok (P := (P k).lift (penF k)) (fabs := Fad.fabs) (HeatCrit.d3 h hk)
    (by show ((P k).basis.map Fad.const).length = (P k).d + 1; rw [List.length_map, h.basis k hk, h.d k hk])
    (HeatCrit.wsOk h hk hp)
    (order := eF k) (by rw [hp.s0]; exact heF k) (result := List.replicate (M.size (M.part k)) 0)
    (by rw [List.length_replicate, hp.s0])
  rw [← hp.s0] at this ⊢
  unfold temperatureAverage
  refine Res.Sat.bind this ?_
  rintro ⟨t, w, r⟩ hr
  exact Res.Sat.ok hr

theorem average_local : FormLocal M fun k U Z X => averageForm abs (P k) U Z X := by
  intro k U U' Z Z' X X' hk hU hZ hX
  have hd := h.d k hk
  have hnp : M.npc = (P k).d + 1 := by rw [FeModel.npc, hd]
  dsimp only
  unfold averageForm
  rw [detForm_congr (HeatCrit.d3 h hk) (fun a i ha hi => hX a i (by omega) (by omega)),
    sum_congr rfl fun a ha => by rw [hU a (by rw [hnp, h.ndof, Nat.mul_one]; exact mem_range.1 ha)],
    show meanDensity ((P k).d + 1) Z = meanDensity ((P k).d + 1) Z' by
      unfold meanDensity
      rw [sum_congr rfl fun a ha => hZ a (by have := mem_range.1 ha; omega)]]

include heR heF in
theorem average_tracks {E : Type} [NormedAddCommGroup E] [NormedSpace ℝ E] (dt : ℝ) (x : E) :
    CritTracks M (temperatureAverage abs P eR) (temperatureAverage Fad.fabs (fun k => (P k).lift (penF k)) eF)
      (fun _ Z X => thermGood M P penF Z X) dt x := by
  refine critTracks_of_form (average_computes h heR dt) (average_computes_fad h heF dt) ?_
  intro k N L UF ZF XF UR ZR XR hk hU hZ hX hg
  have hd := h.d k hk
  have hnp : M.npc = (P k).d + 1 := by rw [FeModel.npc, hd]
  unfold averageForm
  refine Tracks.mul (Tracks.mul (PenOk.tracks (meanDensity_tracks (Nat.succ_ne_zero _)
    fun n (hn : n < (P k).d + 1) => hZ n (by omega)) ?_) (Tracks.sum _ fun a ha => (at0_const_tracks _ _).mul
      (hU a (by rw [hnp, h.ndof, Nat.mul_one]; exact mem_range.1 ha))))
      ((detForm_tracks (HeatCrit.d3 h hk) fun n i hn hi => hX n i (by omega) (by omega)).fabs ?_)
  · rw [hd]; exact hg.2 k hk
  · rw [hd]; exact hg.1

end AverageProps

end Plato.Trans
