import Verif.Crit.AugLagModel
import Verif.Crit.Elastic
import Mathlib.Analysis.Calculus.Deriv.Pow

/-!
# C38: the augmented Lagrangian stress criterion
-/

namespace Plato.Crit
open Finset Plato Plato.Mech

/-! ## The constraint of a cell -/

/-- The squared excess over one. -/
noncomputable def excess (a : ℝ) : ℝ := if 1 < a then (a - 1) * (a - 1) else 0

theorem excess_nonneg (a : ℝ) : 0 ≤ excess a := by
  unfold excess
  split_ifs
  · exact mul_self_nonneg _
  · exact le_rfl

/-- It is differentiable everywhere, also at one. -/
theorem excess_deriv (a : ℝ) : HasDerivAt excess (if 1 < a then 2 * (a - 1) else 0) a := by
  have hq : ∀ a : ℝ, HasDerivAt (fun x : ℝ => (x - 1) * (x - 1)) (2 * (a - 1)) a := by
    intro a
    have := ((hasDerivAt_id a).sub_const 1).mul ((hasDerivAt_id a).sub_const 1)
    refine this.congr_deriv ?_
    simp
    ring
  rcases lt_trichotomy a 1 with h | h | h
  · rw [if_neg (not_lt.2 h.le)]
    refine (hasDerivAt_const a (0 : ℝ)).congr_of_eventuallyEq ?_
    filter_upwards [Iio_mem_nhds h] with y hy
    exact if_neg (not_lt.2 (le_of_lt hy))
  · subst h
    rw [if_neg (lt_irrefl _)]
    have h1 : HasDerivWithinAt excess 0 (Set.Iic 1) 1 := by
      refine (hasDerivWithinAt_const (1 : ℝ) _ (0 : ℝ)).congr (fun y hy => if_neg (not_lt.2 hy)) ?_
      exact if_neg (lt_irrefl _)
    have h2 : HasDerivWithinAt excess 0 (Set.Ici 1) 1 := by
      have := (hq 1).hasDerivWithinAt (s := Set.Ici 1)
      rw [sub_self, mul_zero] at this
      refine this.congr (fun y hy => ?_) (by simp [excess])
      rcases eq_or_lt_of_le (Set.mem_Ici.1 hy) with rfl | h
      · simp [excess]
      · exact if_pos h
    have := h1.union h2
    rw [Set.Iic_union_Ici] at this
    exact this.hasDerivAt Filter.univ_mem
  · rw [if_pos h]
    refine (hq a).congr_of_eventuallyEq ?_
    filter_upwards [Ioi_mem_nhds h] with y hy
    exact if_pos hy

theorem trueConstraint_real (over pen : ℝ) : trueConstraint id over pen = pen * excess over := by
  unfold trueConstraint excess
  simp only [id]
  split_ifs <;> simp

section Tracks
variable {E : Type} [NormedAddCommGroup E] [NormedSpace ℝ E] {L : Nat → E →L[ℝ] ℝ} {N : Nat} {x : E}

theorem trueConstraint_tracks {a p : Fad} {f q : E → ℝ} (ha : Tracks L N x a f) (hp : Tracks L N x p q) :
    Tracks L N x (trueConstraint Fad.val a p) fun y => trueConstraint id (f y) (q y) := by
  have h := hp.mul (ha.comp (excess_deriv (f x)) (b := .mk (excess (f x)) fun k =>
    (if 1 < f x then 2 * (f x - 1) else 0) * a.dx k) rfl fun _ => rfl)
  have e : trueConstraint Fad.val a p = p * .mk (excess (f x)) fun k =>
      (if 1 < f x then 2 * (f x - 1) else 0) * a.dx k := by
    unfold trueConstraint excess
    rw [ha.val]
    split_ifs with h1
    · refine Fad.ext ?_ fun k => ?_
      · simp [ha.val]
      · simp only [Fad.dx_mul, Fad.val_mul, Fad.val_sub, Fad.dx_sub, ha.val]
        simp
        ring_nf
        simp
    · refine Fad.ext (by simp) fun k => by simp
  rw [e]
  exact h.congr (funext fun y => (trueConstraint_real _ _).symm)

/-- Below the limit nothing but continuity is needed. -/
theorem trueConstraint_below {a p : Fad} {f q : E → ℝ} (hv : a.val = f x) (hc : ContinuousAt f x) (h : f x < 1) :
    Tracks L N x (trueConstraint Fad.val a p) fun y => trueConstraint id (f y) (q y) := by
  have e : trueConstraint Fad.val a p = 0 := if_neg (by rw [hv]; exact not_lt.2 h.le)
  rw [e]
  refine ⟨?_, ?_⟩
  · exact (if_neg (not_lt.2 h.le) : (trueConstraint id (f x) (q x) : ℝ) = 0).symm
  · refine (Tracks.zero (L := L) (N := N) (x := x)).deriv.congr_of_eventuallyEq ?_
    filter_upwards [hc (Iio_mem_nhds h)] with y hy
    exact if_neg (not_lt.2 (le_of_lt hy))

end Tracks

/-- Contribution of a cell to the augmented Lagrangian. -/
noncomputable def lagrangian {R : Type} [CommRing R] (ofReal : ℝ → R) (A : AugLag) (n c : Nat) (t : R) : R :=
  ofReal (1 / n) * (ofReal (at0 A.lam c) * t + ofReal (1 / 2) * ofReal A.penalty * t * t)

/-! ## The loops -/

/-- The measure is a function of the data of a cell. -/
def Measures {R : Type} [Zero R] (M : FeModel) (meas : Measure R) (form : Nat → (Nat → R) → (Nat → Nat → R) → R) :
    Prop :=
  ∀ k s z x, k < M.domains.length → PartOk M k s z x →
    (meas k s x (List.replicate (M.size (M.part k)) 0)).Sat fun r => r.length = M.size (M.part k) ∧
      ∀ c, c < M.size (M.part k) → at0 r c = form k (s.e c) (x.e c)

section Loops
variable {M : FeModel} (hM : M.Ok)

theorem dom_le (hM : M.Ok) (k : Nat) : ∀ c, c < M.size (M.part k) → gcell (M.part k) c < M.nc := (hM.domOk k).1

theorem augLagEval_ok {R : Type} [CommRing R] [Div R] {val : R → ℝ} {ofReal : ℝ → R} {pen : PenaltyData → R → R}
    {meas : Measure R} {form : Nat → (Nat → R) → (Nat → Nat → R) → R} (hm : Measures M meas form)
    {A : Nat → AugLag} (hA : ∀ k, k < M.domains.length → M.size (M.part k) ≤ (A k).lam.length) {e : Nat → List Nat}
    (he : ∀ k, IsSchedule (e k) (M.size (M.part k))) (dt : ℝ) {k : Nat} {s z : V2 R} {x : V3 R}
    (hk : k < M.domains.length) (hp : PartOk M k s z x) :
    (augLagEval val ofReal pen M.npc meas A e k s z x (List.replicate (M.size (M.part k)) 0) dt).Sat fun r =>
      r.length = M.size (M.part k) ∧ ∀ c, c < M.size (M.part k) → at0 r c =
        lagrangian ofReal (A k) (M.size (M.part k)) c (trueConstraint val (form k (s.e c) (x.e c) / ofReal (A k).limit)
          (pen (A k).simp (meanDensity M.npc (z.e c)))) := by
  unfold augLagEval
  rw [List.length_replicate]
  refine Res.Sat.bind (hm k s z x hk hp) ?_
  rintro m ⟨hl, hq⟩
  have hz0 := hp.z0
  have hz1 := hp.z1
  have hAk := hA k hk
  refine (parFor_map (he k) (fun c _ => lagrangian ofReal (A k) (M.size (M.part k)) c
    (trueConstraint val (form k (s.e c) (x.e c) / ofReal (A k).limit)
      (pen (A k).simp (meanDensity M.npc (z.e c))))) ?_ List.length_replicate).mono ?_
  · intro c y hc hy
    unfold AugLag.evalCell
    rw [rd_at0 (by omega), Res.ok_bind, cellDensity_ok (by omega) (by omega), Res.ok_bind]
    dsimp only
    rw [rd_at0 (by omega), Res.ok_bind, wr_eq (by omega), hq c hc]
    rfl
  · rintro r ⟨hr, hv⟩
    exact ⟨hr, fun c hc => hv c hc⟩

/-- The multipliers after one update. -/
noncomputable def nextLam (A : AugLag) (n : Nat) (over rho : Nat → ℝ) : List ℝ :=
  List.ofFn fun c : Fin A.lam.length => if c.1 < n then
    max (at0 A.lam c + A.penalty * (Plato.simp A.simp (rho c) * excess (over c))) 0 else at0 A.lam c

/-- The object after one update. -/
noncomputable def nextAug (A : AugLag) (n : Nat) (over rho : Nat → ℝ) : AugLag :=
  ⟨A.simp, A.limit, min (A.expansion * A.penalty) A.bound, A.bound, A.expansion, nextLam A n over rho⟩

theorem update_ok {meas : Measure ℝ} {form : Nat → (Nat → ℝ) → (Nat → Nat → ℝ) → ℝ} (hm : Measures M meas form)
    {A : AugLag} {k : Nat} (hA : M.size (M.part k) ≤ A.lam.length) {order : List Nat}
    (ho : IsSchedule order (M.size (M.part k))) {s z : V2 ℝ} {x : V3 ℝ} (hk : k < M.domains.length)
    (hp : PartOk M k s z x) :
    A.update M.npc k (M.size (M.part k)) meas order s z x = .ok (nextAug A (M.size (M.part k))
      (fun c => form k (s.e c) (x.e c) / A.limit) (fun c => meanDensity M.npc (z.e c))) := by
  unfold AugLag.update
  obtain ⟨m, em, hl, hq⟩ := hm k s z x hk hp
  rw [em, Res.ok_bind]
  have hz0 := hp.z0
  have hz1 := hp.z1
  have key : (parFor order A.lam (A.updateCell M.npc z m)).Sat fun l => l = nextLam A (M.size (M.part k))
      (fun c => form k (s.e c) (x.e c) / A.limit) (fun c => meanDensity M.npc (z.e c)) := by
    refine (parFor_sched ho (fun D l => l.length = A.lam.length ∧ ∀ c, at0 l c = if c ∈ D then
      max (at0 A.lam c + A.penalty * (Plato.simp A.simp (meanDensity M.npc (z.e c)) *
        excess (form k (s.e c) (x.e c) / A.limit))) 0 else at0 A.lam c) ⟨rfl, by simp⟩ ?_).mono ?_
    · rintro D c l hc hD - ⟨h1, h2⟩
      unfold AugLag.updateCell
      rw [rd_at0 (by omega), Res.ok_bind, cellDensity_ok (by omega) (by omega), Res.ok_bind]
      dsimp only
      rw [rd_at0 (by omega), Res.ok_bind, wr_eq (by omega), Res.sat_ok]
      refine ⟨by rw [List.length_set]; exact h1, fun j => ?_⟩
      rw [at0_set (by omega)]
      by_cases hj : j = c
      · subst hj
        rw [if_pos rfl, if_pos (mem_insert_self _ _), h2 j, if_neg hD, hq j hc, trueConstraint_real]
      · rw [if_neg hj, h2 j]
        simp only [mem_insert, hj, false_or]
    · rintro l ⟨h1, h2⟩
      refine List.ext_getElem (by simp [nextLam, h1]) fun c hc hc' => ?_
      have := h2 c
      rw [at0_eq hc] at this
      rw [this]
      simp only [nextLam, List.getElem_ofFn, mem_range]
  obtain ⟨l, el, rfl⟩ := key
  rw [el, Res.ok_bind]
  rfl

end Loops

/-! ## Histories of updates -/

section History
variable {M : FeModel} (hM : M.Ok) {meas : Measure ℝ} {form : Nat → (Nat → ℝ) → (Nat → Nat → ℝ) → ℝ}
  (hm : Measures M meas form) {x : List ℝ} (hx : x.length = M.nn * M.dim)
  (hsize : ∀ k, k < M.domains.length → M.size (M.part k) ≤ M.nc)

/-- Schedules of one call. -/
structure UpdateSched.Ok (M : FeModel) (sc : UpdateSched) : Prop where
  st : ∀ k, k < M.domains.length → IsSchedule (sc.st k) (M.size (M.part k))
  ctl : ∀ k, k < M.domains.length → IsSchedule (sc.ctl k) (M.size (M.part k))
  cfg : ∀ k, k < M.domains.length → IsSchedule (sc.cfg k) (M.size (M.part k))
  upd : ∀ k j, k < M.domains.length → IsSchedule (sc.upd k j) (M.size (M.part k))

/-- A call: sizes, schedules, densities that are not negative. -/
structure CallOk (M : FeModel) (c : UpdateSched × List ℝ × List ℝ) : Prop where
  sch : c.1.Ok M
  u : c.2.1.length = M.nn * M.ndof
  z : c.2.2.length = M.nn
  pos : ∀ i, 0 ≤ at0 c.2.2 i

/-- The four evaluators of each domain have the same state. -/
def Agree (M : FeModel) (F : Nat → Copies) : Prop :=
  ∀ k, k < M.domains.length → (F k).gradU = (F k).value ∧ (F k).gradZ = (F k).value ∧ (F k).gradX = (F k).value

/-- What an object must satisfy for the invariants: limits of the inputs. -/
structure AugLag.Ok (A : AugLag) (nelems : Nat) : Prop where
  size : A.lam.length = nelems
  penalty : 0 ≤ A.penalty
  bound : 0 ≤ A.bound
  expansion : 0 ≤ A.expansion
  minLow : 0 ≤ A.simp.minValue
  minHigh : A.simp.minValue ≤ 1

theorem simp_nonneg {A : AugLag} {n : Nat} (h : A.Ok n) {r : ℝ} (hr : 0 ≤ r) : 0 ≤ Plato.simp A.simp r := by
  unfold Plato.simp
  have := h.minLow
  have := h.minHigh
  have := Real.rpow_nonneg hr A.simp.penalty
  nlinarith [mul_nonneg (sub_nonneg.2 h.minHigh) this]

theorem nextAug_ok {A : AugLag} {m : Nat} (h : A.Ok m) (n : Nat) (over rho : Nat → ℝ) : (nextAug A n over rho).Ok m :=
  ⟨by simp [nextAug, nextLam, h.size], le_min (mul_nonneg h.expansion h.penalty) h.bound, h.bound, h.expansion,
    h.minLow, h.minHigh⟩

/-- What one call does to an object. -/
structure Step (n : Nat) (A B : AugLag) : Prop where
  /-- the members that are inputs stay -/
  fixed : B.simp = A.simp ∧ B.limit = A.limit ∧ B.bound = A.bound ∧ B.expansion = A.expansion
  bounded : B.penalty ≤ A.bound
  mono : ∀ c, at0 A.lam c ≤ at0 B.lam c
  nonneg : ∀ c, c < n → 0 ≤ at0 B.lam c

theorem nextAug_step {A : AugLag} {m : Nat} (h : A.Ok m) {n : Nat} (hn : n ≤ m) (over rho : Nat → ℝ)
    (hr : ∀ c, c < n → 0 ≤ rho c) : Step n A (nextAug A n over rho) := by
  refine ⟨⟨rfl, rfl, rfl, rfl⟩, min_le_right _ _, fun c => ?_, fun c hc => ?_⟩
  · by_cases hc : c < A.lam.length
    · have e : at0 (nextAug A n over rho).lam c = if c < n then
          max (at0 A.lam c + A.penalty * (Plato.simp A.simp (rho c) * excess (over c))) 0 else at0 A.lam c := by
        show at0 (nextLam A n over rho) c = _
        rw [at0_eq (by simp [nextLam, hc])]
        simp only [nextLam, List.getElem_ofFn]
      rw [e]
      split_ifs with h'
      · have := mul_nonneg h.penalty (mul_nonneg (simp_nonneg h (hr c h')) (excess_nonneg (over c)))
        exact le_max_of_le_left (by linarith)
      · exact le_rfl
    · have e1 : at0 A.lam c = 0 := by unfold at0; rw [List.getElem?_eq_none (by omega)]; rfl
      have e2 : at0 (nextAug A n over rho).lam c = 0 := by
        unfold at0; rw [List.getElem?_eq_none (by simp [nextAug, nextLam]; omega)]; rfl
      rw [e1, e2]
  · have hc' : c < A.lam.length := by rw [h.size]; omega
    show 0 ≤ at0 (nextLam A n over rho) c
    rw [at0_eq (by simp [nextLam, hc'])]
    simp only [nextLam, List.getElem_ofFn, hc, if_true]
    exact le_max_right _ _

include hM hm hx hsize

/-- One call of `updateProblem`: all copies of every domain make the same step. -/
theorem C38_update {c : UpdateSched × List ℝ × List ℝ} (hc : CallOk M c) {F : Nat → Copies} (hF : Agree M F)
    (hok : ∀ k, k < M.domains.length → (F k).value.Ok M.nc) :
    (updateProblem M meas x c.1 c.2.1 c.2.2 F).Sat fun F' => Agree M F' ∧
      ∀ k, k < M.domains.length → (F' k).value.Ok M.nc ∧ Step (M.size (M.part k)) (F k).value (F' k).value := by
  obtain ⟨sc, u, z⟩ := c
  obtain ⟨hsc, hu, hz, hpos⟩ := hc
  dsimp only at hsc hu hz hpos ⊢
  unfold updateProblem
  refine (forRange_inv (fun k (F' : Nat → Copies) => (∀ j, k ≤ j → F' j = F j) ∧ ∀ j, j < k → j < M.domains.length →
    ((F' j).gradU = (F' j).value ∧ (F' j).gradZ = (F' j).value ∧ (F' j).gradX = (F' j).value) ∧
    (F' j).value.Ok M.nc ∧ Step (M.size (M.part j)) (F j).value (F' j).value) (Nat.zero_le _)
    ⟨fun _ _ => rfl, fun j hj => absurd hj (Nat.not_lt_zero j)⟩ ?_).mono ?_
  · rintro k F' - hk ⟨hrest, hdone⟩
    have e : rd M.domains k = .ok (domCells M k) := by
      unfold domCells
      rw [List.getElem?_eq_getElem hk]
      simp [rd, hk]
    have hd := hM.domOk k
    rw [part_eq hk] at hd
    have hsz := size_eq hk
    have hP : PartOk M k (gather plainOf M.npc M.ndof M.c2n (domCells M k) u)
        (gather plainOf M.npc 1 M.c2n (domCells M k) z) (gatherX plainOf M.npc M.dim M.c2n (domCells M k) x) :=
      ⟨hsz.symm, rfl, hsz.symm, Nat.mul_one _, hsz.symm, rfl, rfl⟩
    have hA : M.size (M.part k) ≤ (F k).value.lam.length := by rw [(hok k hk).size]; exact hsize k hk
    rw [e, Res.ok_bind, workset_exact hM.mesh hd hu rfl rfl (fun _ _ _ => rfl) (hsz ▸ hsc.st k hk), Res.ok_bind,
      workset_exact (d := 1) hM.mesh hd (by rw [hz, Nat.mul_one]) rfl (by simp) (fun _ _ _ => rfl)
      (hsz ▸ hsc.ctl k hk), Res.ok_bind,
      worksetConfig_exact hM.mesh hd hx rfl rfl rfl (fun _ _ _ _ => rfl) (hsz ▸ hsc.cfg k hk), Res.ok_bind]
    obtain ⟨g1, g2, g3⟩ := hF k hk
    rw [hrest k le_rfl, g1, g2, g3, ← hsz, update_ok hm hA (hsc.upd k 0 hk) hk hP, Res.ok_bind,
      update_ok hm hA (hsc.upd k 1 hk) hk hP, Res.ok_bind, update_ok hm hA (hsc.upd k 2 hk) hk hP, Res.ok_bind,
      update_ok hm hA (hsc.upd k 3 hk) hk hP, Res.ok_bind, Res.pure_eq, Res.sat_ok]
    refine ⟨fun j hj => ?_, fun j hj hjd => ?_⟩
    · rw [Function.update_of_ne (by omega)]
      exact hrest j (by omega)
    · by_cases hjk : j = k
      · subst hjk
        rw [Function.update_self]
        refine ⟨⟨rfl, rfl, rfl⟩, nextAug_ok (hok j hk) _ _ _, nextAug_step (hok j hk) (hsize j hk) _ _ ?_⟩
        intro c hc
        have : ∀ l, l < M.npc → 0 ≤ (gather plainOf M.npc 1 M.c2n (domCells M j) z).e c l := by
          intro l hl
          have : (gather plainOf M.npc 1 M.c2n (domCells M j) z).e c l = at0 z _ :=
            if_pos ⟨hsz ▸ hc, by rw [Nat.mul_one]; exact hl⟩
          rw [this]
          exact hpos _
        exact div_nonneg (sum_nonneg fun l hl => this l (mem_range.1 hl)) (Nat.cast_nonneg _)
      · rw [Function.update_of_ne hjk]
        exact hdone j (by omega) hjd
  · rintro F' ⟨-, h⟩
    exact ⟨fun k hk => (h k hk hk).1, fun k hk => (h k hk hk).2⟩

/-- **C38**: any history of calls, any schedules.  The four evaluators of a domain agree, no multiplier
decreases, and after the first call the multipliers of the cells of the domain are not negative and the
penalty does not exceed its bound. -/
theorem C38_history (l : List (UpdateSched × List ℝ × List ℝ)) (hl : ∀ c ∈ l, CallOk M c) {F : Nat → Copies}
    (hF : Agree M F) (hok : ∀ k, k < M.domains.length → (F k).value.Ok M.nc) :
    (updates M meas x l F).Sat fun F' => Agree M F' ∧ ∀ k, k < M.domains.length → (F' k).value.Ok M.nc ∧
      ((F' k).value.simp = (F k).value.simp ∧ (F' k).value.limit = (F k).value.limit ∧
        (F' k).value.bound = (F k).value.bound ∧ (F' k).value.expansion = (F k).value.expansion) ∧
      (∀ c, at0 (F k).value.lam c ≤ at0 (F' k).value.lam c) ∧
      (F' k).value.penalty ≤ max (F k).value.penalty (F k).value.bound ∧
      (l ≠ [] → (F' k).value.penalty ≤ (F k).value.bound ∧ ∀ c, c < M.size (M.part k) → 0 ≤ at0 (F' k).value.lam c) := by
  induction l generalizing F with
  | nil => exact Res.Sat.ok ⟨hF, fun k hk => ⟨hok k hk, ⟨rfl, rfl, rfl, rfl⟩, fun _ => le_rfl, le_max_left _ _, fun h => absurd rfl h⟩⟩
  | cons c l ih =>
    obtain ⟨sc, u, z⟩ := c
    unfold updates
    refine Res.Sat.bind (C38_update hM hm hx hsize (hl _ List.mem_cons_self) hF hok) ?_
    rintro F1 ⟨a1, b1⟩
    refine (ih (fun c hc => hl c (List.mem_cons_of_mem _ hc)) a1 fun k hk => (b1 k hk).1).mono ?_
    rintro F2 ⟨a2, b2⟩
    refine ⟨a2, fun k hk => ?_⟩
    obtain ⟨o2, ⟨f1, f2, f3, f4⟩, m2, q2, n2⟩ := b2 k hk
    obtain ⟨-, s1⟩ := b1 k hk
    obtain ⟨g1, g2, g3, g4⟩ := s1.fixed
    have hb : (F2 k).value.penalty ≤ (F k).value.bound := q2.trans (max_le s1.bounded g3.le)
    exact ⟨o2, ⟨f1.trans g1, f2.trans g2, f3.trans g3, f4.trans g4⟩, fun c => (s1.mono c).trans (m2 c),
      hb.trans (le_max_right _ _), fun _ => ⟨hb, fun c hc => (s1.nonneg c hc).trans (m2 c)⟩⟩

end History

/-! ## The value -/

/-- The measure does not read entries that do not exist. -/
def MeasLocal {R : Type} (M : FeModel) (form : Nat → (Nat → R) → (Nat → Nat → R) → R) : Prop :=
  ∀ k U U' X X', k < M.domains.length → (∀ l, l < M.npc * M.ndof → U l = U' l) →
    (∀ a i, a < M.npc → i < M.dim → X a i = X' a i) → form k U X = form k U' X'

section Value
variable {M : FeModel} (hM : M.Ok) {meas : Measure ℝ} {form : Nat → (Nat → ℝ) → (Nat → Nat → ℝ) → ℝ}
  (hm : Measures M meas form) (hloc : MeasLocal M form) {A : Nat → AugLag}
  (hA : ∀ k, k < M.domains.length → M.size (M.part k) ≤ (A k).lam.length) {e : Nat → List Nat}
  (he : ∀ k, IsSchedule (e k) (M.size (M.part k))) {S : List (List ℝ)} {z x : List ℝ}
  (hS : ∀ u ∈ S, u.length = M.nn * M.ndof) (hz : z.length = M.nn) (hx : x.length = M.nn * M.dim) {sv : Sched} {w : Nat}
  (hsv : sv.Ok M S.length w)
include hM hm hloc hA he hS hz hx hsv

/-- **C38**: the criterion in closed form. -/
theorem C38_value (dt : ℝ) :
    physicsValue M (augLagEval id id Plato.simp M.npc meas A e) Post.none sv S z x dt =
      .ok (∑ k ∈ range M.domains.length, ∑ t ∈ range S.length, ∑ c ∈ range (M.size (M.part k)),
        lagrangian id (A k) (M.size (M.part k)) c
          (Plato.simp (A k).simp (meanDensity M.npc (M.cellZ z (gcell (M.part k) c))) *
            excess (form k (cellS M (S[t]?.getD []) (gcell (M.part k) c)) (M.cellX x (gcell (M.part k) c)) /
              (A k).limit))) := by
  have hc : ∀ k t, ∃ r : List ℝ, ∀ (ht : t < S.length), k < M.domains.length →
      cellsOf M plainOf plainOf plainOf (augLagEval id id Plato.simp M.npc meas A e) k S[t] z x dt = .ok r ∧
      r.length = M.size (M.part k) ∧
      ∀ c, c < M.size (M.part k) → at0 r c = lagrangian id (A k) (M.size (M.part k)) c
          (Plato.simp (A k).simp (meanDensity M.npc (M.cellZ z (gcell (M.part k) c))) *
            excess (form k (cellS M S[t] (gcell (M.part k) c)) (M.cellX x (gcell (M.part k) c)) / (A k).limit)) := by
    intro k t
    by_cases h : t < S.length ∧ k < M.domains.length
    · have hk := h.2
      have hsz := size_eq hk
      obtain ⟨r, e, l, q⟩ := augLagEval_ok (val := id) (ofReal := id) (pen := Plato.simp) hm hA he dt
        (s := gather plainOf M.npc M.ndof M.c2n (domCells M k) S[t])
        (z := gather plainOf M.npc 1 M.c2n (domCells M k) z) (x := gatherX plainOf M.npc M.dim M.c2n (domCells M k) x) hk
        ⟨hsz.symm, rfl, hsz.symm, Nat.mul_one _, hsz.symm, rfl, rfl⟩
      refine ⟨r, fun _ _ => ⟨?_, l, fun c hc => ?_⟩⟩
      · unfold cellsOf
        rw [← hsz]
        exact e
      · rw [q c hc, trueConstraint_real]
        have e1 : meanDensity M.npc ((gather plainOf M.npc 1 M.c2n (domCells M k) z).e c) =
            meanDensity M.npc (M.cellZ z (gcell (M.part k) c)) := by
          refine meanDensity_congr fun a ha => ?_
          rw [part_eq hk]
          unfold FeModel.cellZ
          rw [← cellDof_one]
          exact if_pos ⟨hsz ▸ hc, by rw [Nat.mul_one]; exact ha⟩
        rw [e1, hloc k _ (cellS M S[t] (gcell (M.part k) c)) _ (M.cellX x (gcell (M.part k) c)) hk ?_ ?_]
        · rfl
        · intro l hl
          rw [part_eq hk]
          exact if_pos ⟨hsz ▸ hc, hl⟩
        · intro a i ha hi
          rw [part_eq hk]
          exact if_pos ⟨hsz ▸ hc, ha, hi⟩
    · exact ⟨[], fun h1 h2 => absurd ⟨h1, h2⟩ h⟩
  choose r hc using hc
  rw [physicsValue_ok hM hS hz hx hsv Post.none (fun k t ht hk => (hc k t ht hk).1)
    (fun k t hk ht => (hc k t ht hk).2.1)]
  simp only [Post.none]
  congr 1
  refine sum_congr rfl fun k hk => sum_congr rfl fun t ht => sum_congr rfl fun c hc' => ?_
  rw [(hc k t (mem_range.1 ht) (mem_range.1 hk)).2.2 c (mem_range.1 hc'),
    List.getElem?_eq_getElem (mem_range.1 ht)]
  rfl

/-- **C38**: with densities and multipliers that are not negative the criterion is not negative. -/
theorem C38_value_nonneg (dt : ℝ) (hok : ∀ k, k < M.domains.length → (A k).Ok M.nc) (hpos : ∀ i, 0 ≤ at0 z i)
    (hlam : ∀ k c, k < M.domains.length → c < M.size (M.part k) → 0 ≤ at0 (A k).lam c) :
    (physicsValue M (augLagEval id id Plato.simp M.npc meas A e) Post.none sv S z x dt).Sat fun v => 0 ≤ v := by
  rw [C38_value hM hm hloc hA he hS hz hx hsv dt, Res.sat_ok]
  refine sum_nonneg fun k hk => sum_nonneg fun t _ => sum_nonneg fun c hc => ?_
  have hk' := mem_range.1 hk
  have hrho : 0 ≤ meanDensity M.npc (M.cellZ z (gcell (M.part k) c)) :=
    div_nonneg (sum_nonneg fun l _ => hpos _) (Nat.cast_nonneg _)
  have ht := mul_nonneg (simp_nonneg (hok k hk') hrho) (excess_nonneg
    (form k (cellS M (S[t]?.getD []) (gcell (M.part k) c)) (M.cellX x (gcell (M.part k) c)) / (A k).limit))
  have h1 := hlam k c hk' (mem_range.1 hc)
  have h2 := (hok k hk').penalty
  unfold lagrangian
  simp only [id]
  positivity

/-- **C38**: when all measures are within the limit the criterion is zero, whatever the multipliers. -/
theorem C38_value_zero (dt : ℝ) (hlim : ∀ k, k < M.domains.length → 0 < (A k).limit)
    (hin : ∀ k c, ∀ u ∈ S, k < M.domains.length → c < M.nc → form k (cellS M u c) (M.cellX x c) ≤ (A k).limit) :
    physicsValue M (augLagEval id id Plato.simp M.npc meas A e) Post.none sv S z x dt = .ok 0 := by
  rw [C38_value hM hm hloc hA he hS hz hx hsv dt]
  refine congrArg Res.ok (sum_eq_zero fun k hk => sum_eq_zero fun t ht => sum_eq_zero fun c hc => ?_)
  have hk' := mem_range.1 hk
  have ht' := mem_range.1 ht
  have : excess (form k (cellS M (S[t]?.getD []) (gcell (M.part k) c)) (M.cellX x (gcell (M.part k) c)) /
      (A k).limit) = 0 := by
    refine if_neg (not_lt.2 ?_)
    rw [div_le_one (hlim k hk'), List.getElem?_eq_getElem ht']
    exact hin k _ _ (List.getElem_mem ht') hk' ((hM.domOk k).1 c (mem_range.1 hc))
  rw [this, mul_zero]
  simp [lagrangian]

end Value

/-! ## The von Mises measure -/

/-- What is under the root. -/
def radicand {R : Type} [CommRing R] (half : R) (d : Nat) (σ : Nat → R) : R :=
  if d = 3 then half * ((σ 0 - σ 1) * (σ 0 - σ 1) + (σ 1 - σ 2) * (σ 1 - σ 2) + (σ 2 - σ 0) * (σ 2 - σ 0)) +
    3 * (σ 3 * σ 3 + σ 4 * σ 4 + σ 5 * σ 5)
  else σ 0 * σ 0 - σ 0 * σ 1 + σ 1 * σ 1 + 3 * (σ 2 * σ 2)

/-- The measure of a stress. -/
def vonMisesForm {R : Type} [CommRing R] (sqrt : R → R) (half : R) (d : Nat) (σ : Nat → R) : R :=
  if d = 1 then σ 0 else sqrt (radicand half d σ)

theorem vonMises_ok {R : Type} [CommRing R] (sqrt : R → R) (half : R) {d c : Nat} (hd : d = 1 ∨ d = 2 ∨ d = 3)
    {stress : V2 R} {r : List R} (h0 : c < stress.d0) (h1 : numVoigt d ≤ stress.d1) (hr : c < r.length) :
    vonMises sqrt half d c stress r = .ok (r.set c (vonMisesForm sqrt half d (stress.e c))) := by
  rcases hd with rfl | rfl | rfl
  · change 1 ≤ _ at h1
    unfold vonMises vonMisesForm
    simp (disch := omega) only [vrd2_ok h0, Res.ok_bind, wr_eq hr]
    simp
  · change 3 ≤ _ at h1
    unfold vonMises vonMisesForm radicand
    simp (disch := omega) only [vrd2_ok h0, Res.ok_bind, wr_eq hr]
    simp
  · change 6 ≤ _ at h1
    unfold vonMises vonMisesForm radicand
    simp (disch := omega) only [vrd2_ok h0, Res.ok_bind, wr_eq hr]
    simp

theorem radicand_congr {R : Type} [CommRing R] (half : R) {d : Nat} (hd : d = 2 ∨ d = 3) {σ τ : Nat → R}
    (h : ∀ t, t < numVoigt d → σ t = τ t) : radicand half d σ = radicand half d τ := by
  rcases hd with rfl | rfl
  · change ∀ t, t < 3 → _ at h
    unfold radicand
    rw [h 0 (by omega), h 1 (by omega), h 2 (by omega), if_neg (by decide), if_neg (by decide)]
  · change ∀ t, t < 6 → _ at h
    unfold radicand
    rw [h 0 (by omega), h 1 (by omega), h 2 (by omega), h 3 (by omega), h 4 (by omega), h 5 (by omega)]

theorem vonMisesForm_congr {R : Type} [CommRing R] (sqrt : R → R) (half : R) {d : Nat} (hd : d = 1 ∨ d = 2 ∨ d = 3)
    {σ τ : Nat → R} (h : ∀ t, t < numVoigt d → σ t = τ t) :
    vonMisesForm sqrt half d σ = vonMisesForm sqrt half d τ := by
  unfold vonMisesForm
  rcases hd with rfl | hd
  · rw [h 0 (by simp [numVoigt])]
    rfl
  · have : d ≠ 1 := by omega
    rw [radicand_congr half hd h, if_neg this, if_neg this]

section Track
variable {E : Type} [NormedAddCommGroup E] [NormedSpace ℝ E] {L : Nat → E →L[ℝ] ℝ} {N : Nat} {x : E}

theorem three_tracks : Tracks L N x (3 : Fad) fun _ => 3 := by
  have : (3 : Fad) = Fad.const 3 := by
    have h3 : (3 : Fad) = ((3 : ℕ) : Fad) := by norm_cast
    rw [h3]
    refine Fad.ext ?_ fun k => ?_
    · rw [Fad.val_natCast]; simp [Fad.const]
    · rw [Fad.dx_natCast]; simp [Fad.const]
  rw [this]
  exact Tracks.const 3

theorem radicand_tracks (half : ℝ) {d : Nat} (hd : d = 2 ∨ d = 3) {σF : Nat → Fad} {σR : E → Nat → ℝ}
    (hσ : ∀ t, t < numVoigt d → Tracks L N x (σF t) fun y => σR y t) :
    Tracks L N x (radicand (Fad.const half) d σF) fun y => radicand half d (σR y) := by
  rcases hd with rfl | rfl
  · simp only [numVoigt] at hσ
    have h0 := hσ 0 (by norm_num)
    have h1 := hσ 1 (by norm_num)
    have h2 := hσ 2 (by norm_num)
    exact (((h0.mul h0).sub (h0.mul h1)).add (h1.mul h1)).add (three_tracks.mul (h2.mul h2))
  · simp only [numVoigt] at hσ
    have h0 := hσ 0 (by norm_num)
    have h1 := hσ 1 (by norm_num)
    have h2 := hσ 2 (by norm_num)
    have h3 := hσ 3 (by norm_num)
    have h4 := hσ 4 (by norm_num)
    have h5 := hσ 5 (by norm_num)
    exact ((Tracks.const half).mul ((((h0.sub h1).mul (h0.sub h1)).add ((h1.sub h2).mul (h1.sub h2))).add
      ((h2.sub h0).mul (h2.sub h0)))).add
      (three_tracks.mul (((h3.mul h3).add (h4.mul h4)).add (h5.mul h5)))

/-- The measure divided by a positive limit either is tracked or is continuous and below one: the root is
not differentiable at zero stress, but zero stress is below the limit. -/
theorem vonMises_tracks (half : ℝ) {d : Nat} (hd : d = 1 ∨ d = 2 ∨ d = 3) {limit : ℝ} (hl : 0 < limit)
    {σF : Nat → Fad} {σR : E → Nat → ℝ} (hσ : ∀ t, t < numVoigt d → Tracks L N x (σF t) fun y => σR y t) {p : Fad}
    {q : E → ℝ} (hp : Tracks L N x p q) :
    Tracks L N x (trueConstraint Fad.val (vonMisesForm sqrtFad (Fad.const half) d σF / Fad.const limit) p)
      fun y => trueConstraint id (vonMisesForm Real.sqrt half d (σR y) / limit) (q y) := by
  rcases eq_or_ne d 1 with h1 | h1
  · subst h1
    exact trueConstraint_tracks ((hσ 0 (by simp [numVoigt])).div (Tracks.const limit) hl.ne') hp
  · have hd' : d = 2 ∨ d = 3 := hd.resolve_left h1
    have hr := radicand_tracks half hd' hσ
    unfold vonMisesForm
    simp only [h1, if_false]
    by_cases h0 : radicand half d (σR x) = 0
    · refine trueConstraint_below ?_ ?_ ?_
      · rw [Fad.val_div]
        show Real.sqrt (radicand (Fad.const half) d σF).val / limit = _
        rw [hr.val]
      · exact (hr.deriv.continuousAt.sqrt).div_const _
      · rw [h0]
        simp
    · exact trueConstraint_tracks ((sqrt_tracks hr h0).div (Tracks.const limit) hl.ne') hp

theorem lagrangian_tracks (A : AugLag) (n c : Nat) {t : Fad} {f : E → ℝ} (ht : Tracks L N x t f) :
    Tracks L N x (lagrangian Fad.const A n c t) fun y => lagrangian id A n c (f y) :=
  (Tracks.const _).mul (((Tracks.const _).mul ht).add ((((Tracks.const _).mul (Tracks.const _)).mul ht).mul ht))

end Track

section VonMises
variable {M : FeModel} {P : Nat → Elastostatic ℝ} (h : MechOk M P) {penF : Nat → Fad → Fad}

theorem vonMises_loop {R : Type} [CommRing R] [Div R] (fabs sqrt : R → R) (half : R) {P : Elastostatic R}
    (hd : P.d = 1 ∨ P.d = 2 ∨ P.d = 3) {nc : Nat} {s z : V2 R} {x : V3 R} (hw : WsOk P.d P.d nc s z x)
    {order : List Nat} (ho : IsSchedule order nc) :
    (parFor order (Views.new P.d nc, List.replicate nc (0 : R)) fun c (p : Views R × List R) => do
      let w ← P.stressCell fabs s x c p.1
      let r ← vonMises sqrt half P.d c w.stress p.2
      pure (w, r)).Sat fun p => p.2.length = nc ∧ ∀ c, c < nc → at0 p.2 c =
        vonMisesForm sqrt half P.d (P.solidStress (s.e c) (x.e c)) := by
  refine (parFor_sched ho (fun D (p : Views R × List R) => p.1.Ok P.d nc ∧
    (∀ c, c ∉ D → ∀ t, p.1.strain.e c t = 0) ∧ p.2.length = nc ∧
    ∀ c ∈ D, at0 p.2 c = vonMisesForm sqrt half P.d (P.solidStress (s.e c) (x.e c)))
    ⟨Views.new_ok _ _, fun _ _ _ => rfl, List.length_replicate, by simp⟩ ?_).mono ?_
  · rintro D c ⟨w, r⟩ hc hD - ⟨hok, hz, hl, hq⟩
    refine Res.Sat.bind (stressCell_ok fabs hd hw hc hok (hz c hD)) ?_
    rintro w' ⟨hok', hp, hf⟩
    have b0 := hok'.s0
    have b1 := hok'.s1
    dsimp only at hl hq hz ⊢
    rw [vonMises_ok sqrt half hd (by omega) b1.ge (by omega), Res.ok_bind]
    refine Res.Sat.ok ⟨hok', ?_, by rw [List.length_set]; exact hl, ?_⟩
    · intro r' hr' t
      have hne : r' ≠ c := by rintro rfl; exact hr' (mem_insert_self _ _)
      rw [(hf r' hne).2.2.1]
      exact hz r' (fun h => hr' (mem_insert_of_mem h)) t
    · intro r' hr'
      rw [at0_set (by omega)]
      by_cases hne : r' = c
      · subst hne
        rw [if_pos rfl]
        exact vonMisesForm_congr sqrt half hd hp.stress
      · rw [if_neg hne]
        exact hq r' (mem_of_mem_insert_of_ne hr' hne)
  · rintro ⟨w, r⟩ ⟨-, -, hl, hq⟩
    exact ⟨hl, fun c hc => hq c (mem_range.2 hc)⟩

include h

theorem vonMises_measures (half : ℝ) {e : Nat → List Nat} (he : ∀ k, IsSchedule (e k) (M.size (M.part k))) :
    Measures M (vonMisesMeasure abs Real.sqrt half P e) fun k U X =>
      vonMisesForm Real.sqrt half (P k).d ((P k).solidStress U X) := by
  intro k s z x hk hp
  unfold vonMisesMeasure
  rw [List.length_replicate]
  have hw := h.wsOk hk hp
  rw [hp.s0] at hw
  refine Res.Sat.bind (vonMises_loop abs Real.sqrt half (h.d3 hk) hw (he k)) ?_
  rintro ⟨w, r⟩ ⟨hl, hq⟩
  exact Res.Sat.ok ⟨hl, hq⟩

theorem vonMises_measures_fad (half : ℝ) {e : Nat → List Nat} (he : ∀ k, IsSchedule (e k) (M.size (M.part k))) :
    Measures M (vonMisesMeasure Fad.fabs sqrtFad (Fad.const half) (fun k => (P k).lift (penF k)) e) fun k U X =>
      vonMisesForm sqrtFad (Fad.const half) (P k).d (((P k).lift (penF k)).solidStress U X) := by
  intro k s z x hk hp
  unfold vonMisesMeasure
  rw [List.length_replicate]
  have hw := h.wsOk hk hp
  rw [hp.s0] at hw
  refine Res.Sat.bind (vonMises_loop (P := (P k).lift (penF k)) Fad.fabs sqrtFad (Fad.const half) (h.d3 hk) hw (he k)) ?_
  rintro ⟨w, r⟩ ⟨hl, hq⟩
  exact Res.Sat.ok ⟨hl, hq⟩

theorem vonMises_local (half : ℝ) : MeasLocal M fun k U X =>
    vonMisesForm Real.sqrt half (P k).d ((P k).solidStress U X) := by
  intro k U U' X X' hk hU hX
  have hd := h.d k hk
  have hnp : M.npc = (P k).d + 1 := by rw [FeModel.npc, hd]
  have : (P k).solidStress U X = (P k).solidStress U' X' := by
    funext t
    have e := weightedStress_congr (P := ⟨(P k).d, (P k).stiff, (P k).refStrain, fun _ => 1, (P k).cubWeight,
      (P k).forcing, (P k).bodyLoads⟩) (h.d3 hk) (U := U) (U' := U') (Z := fun _ => 0) (Z' := fun _ => 0) (X := X) (X' := X')
      (fun l hl => hU l (by rw [hnp, h.ndof, ← hd]; exact hl)) (fun _ _ => rfl)
      (fun a i ha hi => hX a i (by rw [hnp]; exact ha) (by rw [← hd]; exact hi))
    have := congrFun e t
    unfold weightedStress at this
    rw [mul_one, mul_one] at this
    exact this
  show vonMisesForm Real.sqrt half (P k).d ((P k).solidStress U X) = _
  rw [this]

/-- What the criterion needs from a cell. -/
def goodAug (M : FeModel) (A : Nat → AugLag) (Z : Nat → ℝ) (X : Nat → Nat → ℝ) : Prop :=
  detForm M.dim X ≠ 0 ∧ ∀ k, k < M.domains.length → meanDensity (M.dim + 1) Z ≠ 0 ∨ 1 ≤ (A k).simp.penalty

theorem augLag_tracks {E : Type} [NormedAddCommGroup E] [NormedSpace ℝ E] (half : ℝ) {A : Nat → AugLag}
    (hA : ∀ k, k < M.domains.length → M.size (M.part k) ≤ (A k).lam.length)
    (hlim : ∀ k, k < M.domains.length → 0 < (A k).limit) {B : Nat → AugLag}
    (hB : ∀ k, k < M.domains.length → B k = A k) {mR mF eR eF : Nat → List Nat}
    (hmR : ∀ k, IsSchedule (mR k) (M.size (M.part k))) (hmF : ∀ k, IsSchedule (mF k) (M.size (M.part k)))
    (heR : ∀ k, IsSchedule (eR k) (M.size (M.part k))) (heF : ∀ k, IsSchedule (eF k) (M.size (M.part k)))
    (dt : ℝ) (x : E) :
    CritTracks M (augLagEval id id Plato.simp M.npc (vonMisesMeasure abs Real.sqrt half P mR) A eR)
      (augLagEval Fad.val Fad.const simpFad M.npc
        (vonMisesMeasure Fad.fabs sqrtFad (Fad.const half) (fun k => (P k).lift (penF k)) mF) B eF)
      (fun _ Z X => goodAug M A Z X) dt x := by
  intro k N L sF zF xF sR zR xR hk pF pR hs hz hx hg
  have hBl : ∀ k, k < M.domains.length → M.size (M.part k) ≤ (B k).lam.length := fun k hk => by
    rw [hB k hk]; exact hA k hk
  obtain ⟨rF, e1, l1, q1⟩ := augLagEval_ok (val := Fad.val) (ofReal := Fad.const) (pen := simpFad)
    (vonMises_measures_fad h (penF := penF) half hmF) hBl heF dt hk pF
  have := fun y => augLagEval_ok (val := id) (ofReal := id) (pen := Plato.simp)
    (vonMises_measures h half hmR) hA heR dt hk (pR y)
  choose rR e2 l2 using this
  refine ⟨rF, rR, e1, e2, l1, fun y => (l2 y).1, fun c hc => ?_⟩
  have hd := h.d k hk
  have hnp : M.npc = (P k).d + 1 := by rw [FeModel.npc, hd]
  have hσ : ∀ t, t < numVoigt (P k).d → Tracks (L c) N x
      (((P k).lift (penF k)).solidStress (sF.e c) (xF.e c) t) fun y => (P k).solidStress ((sR y).e c) ((xR y).e c) t := by
    intro t _
    refine solidStress_tracks (h.d3 hk) (fun l hl => hs c l hc (by rw [hnp, h.ndof, ← hd]; exact hl))
      (fun n i hn hi => hx c n i hc (by omega) (by omega)) ?_ t
    rw [hd]
    exact (hg c hc).1
  have hρ : Tracks (L c) N x (simpFad (A k).simp (meanDensity M.npc (zF.e c)))
      fun y => Plato.simp (A k).simp (meanDensity M.npc ((zR y).e c)) :=
    (simp_penOk (A k).simp ((hg c hc).2 k hk)).tracks (meanDensity_tracks (Nat.succ_ne_zero _) fun a ha => hz c a hc ha)
  rw [q1 c hc, hB k hk]
  refine (lagrangian_tracks (A k) (M.size (M.part k)) c (vonMises_tracks half (h.d3 hk) (hlim k hk) hσ hρ)).congr ?_
  funext y
  exact ((l2 y).2 c hc).symm

variable (hM : M.Ok)
include hM

/-- **C38**: after any history of updates, at any configurations and states before, the three gradients of
the criterion are the derivatives of its value.  Zero stress needs no exception. -/
theorem C38_gradients (half : ℝ) {S : List (List ℝ)} {z : Fin M.nn → ℝ} {x : Fin (M.nn * M.dim) → ℝ}
    {u : Fin (M.nn * M.ndof) → ℝ} {j : Nat} {dt : ℝ} {sv sx su sz : Sched} {wv : Nat}
    (hsize : ∀ k, k < M.domains.length → M.size (M.part k) ≤ M.nc)
    {mH mR mX mU mZ eR eX eU eZ : Nat → List Nat} (hmH : ∀ k, IsSchedule (mH k) (M.size (M.part k)))
    (hmR : ∀ k, IsSchedule (mR k) (M.size (M.part k))) (hmX : ∀ k, IsSchedule (mX k) (M.size (M.part k)))
    (hmU : ∀ k, IsSchedule (mU k) (M.size (M.part k))) (hmZ : ∀ k, IsSchedule (mZ k) (M.size (M.part k)))
    (heR : ∀ k, IsSchedule (eR k) (M.size (M.part k))) (heX : ∀ k, IsSchedule (eX k) (M.size (M.part k)))
    (heU : ∀ k, IsSchedule (eU k) (M.size (M.part k))) (heZ : ∀ k, IsSchedule (eZ k) (M.size (M.part k)))
    {x0 : List ℝ} (hx0 : x0.length = M.nn * M.dim) (l : List (UpdateSched × List ℝ × List ℝ))
    (hl : ∀ c ∈ l, CallOk M c) {F : Nat → Copies} (hF : Agree M F)
    (hok : ∀ k, k < M.domains.length → (F k).value.Ok M.nc)
    (hlim : ∀ k, k < M.domains.length → 0 < (F k).value.limit)
    (hj : S[j]? = some (List.ofFn u)) (hS : ∀ u ∈ S, u.length = M.nn * M.ndof)
    (hgood : ∀ c, c < M.nc → goodAug M (fun k => (F k).value) (M.cellZ (List.ofFn z) c) (M.cellX (List.ofFn x) c))
    (hsv : sv.Ok M S.length wv) (hsx : sx.Ok M S.length (M.npc * M.dim)) (hsu : su.Ok M 1 (M.npc * M.ndof))
    (hsz : sz.Ok M S.length (M.npc * 1)) :
    (updates M (vonMisesMeasure abs Real.sqrt half P mH) x0 l F).Sat fun F' =>
      Differentiates (augLagCriterion M (vonMisesMeasure abs Real.sqrt half P mR)
        (vonMisesMeasure Fad.fabs sqrtFad (Fad.const half) (fun k => (P k).lift (penF k)) mX)
        (vonMisesMeasure Fad.fabs sqrtFad (Fad.const half) (fun k => (P k).lift (penF k)) mU)
        (vonMisesMeasure Fad.fabs sqrtFad (Fad.const half) (fun k => (P k).lift (penF k)) mZ) F' eR eX eU eZ sv sx su sz)
        (M.nn * M.dim) (M.nn * M.ndof) M.nn S z x j u dt := by
  refine (C38_history hM (vonMises_measures h half hmH) hx0 hsize l hl hF hok).mono ?_
  rintro F' ⟨hag, hF'⟩
  have hA : ∀ k, k < M.domains.length → M.size (M.part k) ≤ (F' k).value.lam.length := fun k hk => by
    rw [(hF' k hk).1.size]; exact hsize k hk
  have hlim' : ∀ k, k < M.domains.length → 0 < (F' k).value.limit := fun k hk => by
    rw [(hF' k hk).2.1.2.1]; exact hlim k hk
  have hloc : CritLocal M fun _ Z X => goodAug M (fun k => (F' k).value) Z X := by
    intro U U' Z Z' X X' _ hZ hX hg
    refine ⟨?_, ?_⟩
    · rw [← detForm_congr h.dim hX]
      exact hg.1
    · rw [← meanDensity_congr (npc := M.dim + 1) hZ]
      exact hg.2
  refine C51_differentiates hM hloc hj hS
    (augLag_tracks h half hA hlim' (fun k hk => (hag k hk).2.2) hmR hmX heR heX dt _)
    (augLag_tracks h half hA hlim' (fun k hk => (hag k hk).1) hmR hmU heR heU dt _)
    (augLag_tracks h half hA hlim' (fun k hk => (hag k hk).2.1) hmR hmZ heR heZ dt _) ?_ hsv hsx hsu hsz (.inr rfl)
    fun m v _ _ => Post.none_ok m v
  intro _ _ c hc
  refine ⟨(hgood c hc).1, fun k hk => ?_⟩
  rw [(hF' k hk).2.1.1]
  exact (hgood c hc).2 k hk

end VonMises

end Plato.Crit
