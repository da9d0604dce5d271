import Verif.Plast.ContinuationModel
import Mathlib.Tactic.Linarith
import Mathlib.Tactic.NormNum
import Mathlib.Algebra.Order.Group.MinMax
import Mathlib.Logic.Function.Iterate
import Mathlib.Tactic.Ring
import Mathlib.Tactic.IntervalCases
import Mathlib.Data.List.Nodup

/-!
# Continuation of the penalties (C79)
-/

namespace Plato.Plast

/-- Comparison of numbers. -/
noncomputable def geReal (a b : ℝ) : Bool := decide (b ≤ a)

theorem nextExponent_min (step bound p : ℝ) : nextExponent geReal step bound p = min bound (p + step) := by
  unfold nextExponent geReal
  by_cases h : bound ≤ p + step
  · simp [h]
  · simp [h, min_eq_right (le_of_not_ge h)]

/-- Exponent after `n` updates. -/
theorem next_iterate {step : ℝ} (hs : 0 ≤ step) (bound p : ℝ) (n : Nat) :
    (nextExponent geReal step bound)^[n + 1] p = min bound (p + (n + 1 : Nat) * step) := by
  induction n with
  | zero => simp [nextExponent_min]
  | succ n ih =>
    rw [Function.iterate_succ_apply', ih, nextExponent_min, ← min_add_add_right, ← min_assoc, min_eq_left (b := bound + step) (by linarith)]
    push_cast
    ring_nf

/-- Every object makes as many steps as it is visited. -/
theorem visit_p (visits : List (Nat × Nat)) (C : Copies ℝ) (k t : Nat) :
    (C.visit geReal visits).p k t = (nextExponent geReal (C.step k) (C.bound k))^[visits.count (k, t)] (C.p k t) := by
  unfold Copies.visit
  dsimp only
  generalize C.p = p
  induction visits generalizing p with
  | nil => rfl
  | cons v vs ih =>
    rw [List.foldl_cons, ih]
    by_cases h : k = v.1 ∧ t = v.2
    · rw [if_pos h, List.count_cons, if_pos (by simp [h.1, h.2]), Function.iterate_succ_apply]
    · rw [if_neg h, List.count_cons, if_neg, Nat.add_zero]
      intro e
      rw [beq_iff_eq] at e
      exact h ⟨by rw [e], by rw [e]⟩

theorem count_all {order : List Nat} (hn : order.Nodup) {domains k t : Nat} (hk : k < domains) (ht : t ∈ order) :
    (allDomains order domains).count (k, t) = 1 := by
  refine List.count_eq_one_of_mem ?_ ?_
  · unfold allDomains
    rw [List.nodup_flatMap]
    refine ⟨fun _ _ => hn.map fun _ _ h => (Prod.mk.inj h).2, ?_⟩
    refine List.nodup_range.imp ?_
    intro a b hab
    rw [Function.onFun, List.disjoint_left]
    intro v ha hb
    rw [List.mem_map] at ha hb
    obtain ⟨_, _, rfl⟩ := ha
    obtain ⟨_, _, e⟩ := hb
    exact hab (Prod.mk.inj e).1.symm
  · unfold allDomains
    rw [List.mem_flatMap]
    exact ⟨k, List.mem_range.2 hk, List.mem_map.2 ⟨t, ht, rfl⟩⟩

theorem count_projection {domains k t : Nat} (hk : k < domains) (ht : t < 5) :
    (projectionVisits domains).count (k, t) = if k = 0 then 2 else 1 := by
  unfold projectionVisits
  rw [List.count_append, count_all (by decide) hk (by interval_cases t <;> decide)]
  by_cases h : k = 0
  · subst h
    rw [if_pos rfl]
    interval_cases t <;> rfl
  · rw [if_neg h, List.count_eq_zero_of_not_mem]
    simp [h]

/-- The exponents of a function, when the first `copies` objects of the first `domains` domains hold `p`. -/
def Holds (C : Copies ℝ) (copies domains : Nat) (p : Nat → ℝ) : Prop := ∀ k, k < domains → ∀ t, t < copies → C.p k t = p k

/-- Terms of a criterion. -/
def Criterion.terms : Criterion ℝ → List (Copies ℝ)
  | .basic c => [c]
  | .weighted cs => cs

section Iterate
variable (order : Nat → List (Nat × Nat))

/-- A function after `n` updates. -/
noncomputable def Copies.visits (vs : List (Nat × Nat)) (n : Nat) (C : Copies ℝ) : Copies ℝ := (Copies.visit geReal vs)^[n] C

theorem visits_p (vs : List (Nat × Nat)) (n : Nat) (C : Copies ℝ) : (C.visits vs n).step = C.step ∧ (C.visits vs n).bound = C.bound ∧
    ∀ k t, (C.visits vs n).p k t = (nextExponent geReal (C.step k) (C.bound k))^[n * vs.count (k, t)] (C.p k t) := by
  induction n with
  | zero => exact ⟨rfl, rfl, fun k t => by simp [Copies.visits]⟩
  | succ n ih =>
    have e : C.visits vs (n + 1) = (C.visits vs n).visit geReal vs := Function.iterate_succ_apply' _ _ _
    refine ⟨by rw [e]; exact ih.1, by rw [e]; exact ih.2.1, fun k t => ?_⟩
    rw [e, visit_p, ih.1, ih.2.1, ih.2.2, ← Function.iterate_add_apply]
    congr 2
    ring

/-- A criterion after `n` updates. -/
noncomputable def Criterion.after (domains n : Nat) : Criterion ℝ → Criterion ℝ
  | .basic c => .basic (c.visits (scalarVisits domains) n)
  | .weighted cs => .weighted (cs.map fun c => c.visits (scalarVisits domains) n)

end Iterate

/-- The updates of a problem: all functions are updated, provided no weighted criterion is empty. -/
theorem updates_ok (domains n : Nat) (E : Penalties ℝ) (hc : ∀ c ∈ E.criteria, c.terms ≠ []) :
    E.updates geReal domains n = .ok ⟨E.elastic.visits (localVisits domains) n, E.plastic.visits (localVisits domains) n,
      E.global.visits (globalVisits domains) n, E.projection.visits (projectionVisits domains) n,
      E.criteria.map (Criterion.after domains n)⟩ := by
  induction n with
  | zero =>
    have e : E.criteria.map (Criterion.after domains 0) = E.criteria := by
      refine (List.map_congr_left fun c _ => ?_).trans (List.map_id _)
      cases c with
      | basic c => rfl
      | weighted cs =>
        show Criterion.weighted (cs.map fun c => c) = _
        rw [List.map_id']
        rfl
    rw [e]
    rfl
  | succ n ih =>
    have hfold : ∀ (cs done : List (Criterion ℝ)), (∀ c ∈ cs, c.terms ≠ []) →
        ((cs.map (Criterion.after domains n)).foldlM (fun (done : List (Criterion ℝ)) c => do
          let c ← c.update geReal domains
          pure (done ++ [c])) done : Res (List (Criterion ℝ))) = .ok (done ++ cs.map (Criterion.after domains (n + 1))) := by
      intro cs
      induction cs with
      | nil => intro done _; rw [List.map_nil, List.foldlM_nil, Res.pure_eq, List.map_nil, List.append_nil]
      | cons c cs ihc =>
        intro done h
        have e : (Criterion.after domains n c).update geReal domains = .ok (Criterion.after domains (n + 1) c) := by
          cases c with
          | basic c =>
            simp only [Criterion.after, Criterion.update, Copies.visits, Function.iterate_succ_apply']
          | weighted l =>
            have hl : l ≠ [] := h _ (List.mem_cons_self ..)
            simp only [Criterion.after, Criterion.update, List.length_map]
            rw [if_neg (by simpa using hl), List.map_map]
            simp only [Copies.visits, Function.iterate_succ_apply', Function.comp_def]
        rw [List.map_cons, List.foldlM_cons, e, Res.ok_bind, Res.pure_eq, Res.ok_bind,
          ihc _ fun c hc => h c (List.mem_cons_of_mem _ hc), List.map_cons, List.append_assoc]
        rfl
    show (do
      let E ← E.updates geReal domains n
      E.update geReal domains) = _
    rw [ih, Res.ok_bind]
    unfold Penalties.update
    rw [hfold _ _ hc, Res.ok_bind, Res.pure_eq, List.nil_append]
    simp only [Copies.visits, Function.iterate_succ_apply']

/-- The objects of a function agree in each domain. -/
def Agree (copies domains : Nat) (C : Copies ℝ) : Prop :=
  ∀ k, k < domains → ∀ t, t < copies → ∀ t', t' < copies → C.p k t = C.p k t'

theorem agree_all {order : List Nat} (hn : order.Nodup) {copies : Nat} (hm : ∀ t, t < copies → t ∈ order) {domains : Nat}
    {C : Copies ℝ} (h : Agree copies domains C) (n : Nat) : Agree copies domains (C.visits (allDomains order domains) n) := by
  intro k hk t ht t' ht'
  rw [(visits_p _ n C).2.2, (visits_p _ n C).2.2, count_all hn hk (hm t ht), count_all hn hk (hm t' ht'), h k hk t ht t' ht']

theorem holds_all {order : List Nat} (hn : order.Nodup) {copies : Nat} (hm : ∀ t, t < copies → t ∈ order) {domains : Nat}
    {C : Copies ℝ} {p : Nat → ℝ} (h : Holds C copies domains p) (hs : ∀ k, k < domains → 0 ≤ C.step k) (n : Nat) :
    Holds (C.visits (allDomains order domains) (n + 1)) copies domains fun k =>
      min (C.bound k) (p k + (n + 1 : Nat) * C.step k) := by
  intro k hk t ht
  rw [(visits_p _ _ C).2.2, count_all hn hk (hm t ht), Nat.mul_one, next_iterate (hs k hk), h k hk t ht]

theorem mem7 : ∀ t, t < 7 → t ∈ [0, 1, 2, 3, 4, 5, 6] := by decide
theorem mem8 : ∀ t, t < 8 → t ∈ [0, 6, 5, 3, 4, 1, 2, 7] := by decide

section Props
variable (domains : Nat) (E : Penalties ℝ) (hc : ∀ c ∈ E.criteria, c.terms ≠ [])

include hc

/-- **C79, agreement**: if value and derivatives of each function start with the same exponent, they have the same
exponent after any number of updates: the derivatives stay those of the value. -/
theorem C79_agree (h1 : Agree 7 domains E.elastic) (h2 : Agree 7 domains E.plastic) (h3 : Agree 8 domains E.global)
    (h4 : Agree 5 domains E.projection) (h5 : ∀ c ∈ E.criteria, ∀ a ∈ c.terms, Agree 7 domains a) (n : Nat) :
    (E.updates geReal domains n).Sat fun F => Agree 7 domains F.elastic ∧ Agree 7 domains F.plastic ∧
      Agree 8 domains F.global ∧ Agree 5 domains F.projection ∧ ∀ c ∈ F.criteria, ∀ a ∈ c.terms, Agree 7 domains a := by
  rw [updates_ok domains n E hc, Res.sat_ok]
  refine ⟨agree_all (by decide) mem7 h1 n, agree_all (by decide) mem7 h2 n, agree_all (by decide) mem8 h3 n, ?_, ?_⟩
  · intro k hk t ht t' ht'
    dsimp only
    rw [(visits_p _ n _).2.2, (visits_p _ n _).2.2, count_projection hk ht, count_projection hk ht', h4 k hk t ht t' ht']
  · intro c hcm a ha
    dsimp only at hcm
    rw [List.mem_map] at hcm
    obtain ⟨c, hcm, rfl⟩ := hcm
    cases c with
    | basic c =>
      rw [show (Criterion.after domains n (.basic c)).terms = [c.visits (scalarVisits domains) n] from rfl,
        List.mem_singleton] at ha
      rw [ha]
      exact agree_all (by decide) mem7 (h5 _ hcm c (by simp [Criterion.terms])) n
    | weighted cs =>
      rw [show (Criterion.after domains n (.weighted cs)).terms = cs.map fun c => c.visits (scalarVisits domains) n from rfl,
        List.mem_map] at ha
      obtain ⟨a, ham, rfl⟩ := ha
      exact agree_all (by decide) mem7 (h5 _ hcm a ham) n

/-- **C79, exponents**: after `n + 1` updates the exponents of the equations for local and global unknowns and of all
criteria are those of the beginning plus `n + 1` steps, but not above the bound; so are those of the projection in
all domains but the first. -/
theorem C79_exponents {e p g q : Nat → ℝ} (h1 : Holds E.elastic 7 domains e) (h2 : Holds E.plastic 7 domains p)
    (h3 : Holds E.global 8 domains g) (h4 : Holds E.projection 5 domains q)
    (s1 : ∀ k, k < domains → 0 ≤ E.elastic.step k) (s2 : ∀ k, k < domains → 0 ≤ E.plastic.step k)
    (s3 : ∀ k, k < domains → 0 ≤ E.global.step k) (s4 : ∀ k, k < domains → 0 ≤ E.projection.step k) (n : Nat) :
    (E.updates geReal domains (n + 1)).Sat fun F =>
      (Holds F.elastic 7 domains fun k => min (E.elastic.bound k) (e k + (n + 1 : Nat) * E.elastic.step k)) ∧
      (Holds F.plastic 7 domains fun k => min (E.plastic.bound k) (p k + (n + 1 : Nat) * E.plastic.step k)) ∧
      (Holds F.global 8 domains fun k => min (E.global.bound k) (g k + (n + 1 : Nat) * E.global.step k)) ∧
      ∀ k, k < domains → 0 < k → ∀ t, t < 5 →
        F.projection.p k t = min (E.projection.bound k) (q k + (n + 1 : Nat) * E.projection.step k) := by
  rw [updates_ok domains _ E hc, Res.sat_ok]
  refine ⟨holds_all (by decide) mem7 h1 s1 n, holds_all (by decide) mem7 h2 s2 n, holds_all (by decide) mem8 h3 s3 n, ?_⟩
  intro k hk h0 t ht
  dsimp only
  rw [(visits_p _ _ _).2.2, count_projection hk ht, if_neg h0.ne', Nat.mul_one, next_iterate (s4 k hk), h4 k hk t ht]

/-- The same for the terms of the criteria, which keep their order. -/
theorem C79_criteria (n : Nat) : (E.updates geReal domains (n + 1)).Sat fun F => F.criteria.length = E.criteria.length ∧
    ∀ i, i < E.criteria.length → ∀ c d, E.criteria[i]? = some c → F.criteria[i]? = some d →
      d.terms.length = c.terms.length ∧ ∀ (j : Nat) a b, c.terms[j]? = some a → d.terms[j]? = some b →
        (∀ k, k < domains → 0 ≤ a.step k) → ∀ p, Holds a 7 domains p →
          Holds b 7 domains fun k => min (a.bound k) (p k + (n + 1 : Nat) * a.step k) := by
  rw [updates_ok domains _ E hc, Res.sat_ok]
  refine ⟨List.length_map .., fun i _ c d ec ed => ?_⟩
  dsimp only at ed
  rw [List.getElem?_map, ec, Option.map_some, Option.some.injEq] at ed
  subst ed
  cases c with
  | basic c =>
    refine ⟨rfl, fun j a b ea eb hs p hp => ?_⟩
    cases j with
    | zero =>
      obtain rfl : c = a := by simpa [Criterion.terms] using ea
      obtain rfl : c.visits (scalarVisits domains) (n + 1) = b := by simpa [Criterion.terms, Criterion.after] using eb
      exact holds_all (by decide) mem7 hp hs n
    | succ j => simp [Criterion.terms] at ea
  | weighted cs =>
    refine ⟨by simp [Criterion.terms, Criterion.after], fun j a b ea eb hs p hp => ?_⟩
    have ea : cs[j]? = some a := ea
    have eb : (cs.map fun c => c.visits (scalarVisits domains) (n + 1))[j]? = some b := eb
    rw [List.getElem?_map, ea, Option.map_some, Option.some.injEq] at eb
    subst eb
    exact holds_all (by decide) mem7 hp hs n

/-- **C79 fails for the projection in the first domain**: its objects are updated twice, so it makes two steps at each
update. -/
theorem C79_first_domain_false {q : Nat → ℝ} (h4 : Holds E.projection 5 domains q) (h0 : 0 < domains)
    (s4 : 0 ≤ E.projection.step 0) (n : Nat) :
    (E.updates geReal domains (n + 1)).Sat fun F => ∀ t, t < 5 →
      F.projection.p 0 t = min (E.projection.bound 0) (q 0 + 2 * (n + 1 : Nat) * E.projection.step 0) := by
  rw [updates_ok domains _ E hc, Res.sat_ok]
  intro t ht
  dsimp only
  rw [(visits_p _ _ _).2.2, count_projection h0 ht, if_pos rfl, show (n + 1) * 2 = 2 * n + 1 + 1 by ring, next_iterate s4,
    h4 0 h0 t ht]
  congr 3
  push_cast
  ring

/-- Two domains of the same material with the same penalty function have different penalties in the projection. -/
theorem C79_domains_false {q : Nat → ℝ} (h4 : Holds E.projection 5 domains q) (h2 : 1 < domains) (eq : q 0 = q 1)
    (es : E.projection.step 0 = E.projection.step 1) (eb : E.projection.bound 0 = E.projection.bound 1)
    (hs : 0 < E.projection.step 0) {n : Nat} (hb : q 0 + (n + 1 : Nat) * E.projection.step 0 < E.projection.bound 0) :
    (E.updates geReal domains (n + 1)).Sat fun F => ∀ t, t < 5 → F.projection.p 1 t < F.projection.p 0 t := by
  rw [updates_ok domains _ E hc, Res.sat_ok]
  intro t ht
  dsimp only
  rw [(visits_p _ _ _).2.2, (visits_p _ _ _).2.2, count_projection h2 ht, count_projection (by omega) ht, if_pos rfl,
    if_neg one_ne_zero, Nat.mul_one, show (n + 1) * 2 = 2 * n + 1 + 1 by ring, next_iterate hs.le,
    next_iterate (by rw [← es]; exact hs.le), h4 0 (by omega) t ht, h4 1 h2 t ht, ← es, ← eb, ← eq, min_eq_right hb.le]
  refine lt_min hb ?_
  have : (0 : ℝ) ≤ n := Nat.cast_nonneg n
  have h3 := mul_pos (by linarith : (0 : ℝ) < n + 1) hs
  push_cast
  nlinarith

omit hc in
/-- **C79**: an update with an empty weighted criterion stops with an error. -/
theorem C79_empty (h : Criterion.weighted [] ∈ E.criteria) : ∃ msg, E.update geReal domains = .err msg := by
  have hfold : ∀ (cs done : List (Criterion ℝ)), Criterion.weighted [] ∈ cs →
      ∃ msg, (cs.foldlM (fun (done : List (Criterion ℝ)) c => do
        let c ← c.update geReal domains
        pure (done ++ [c])) done : Res (List (Criterion ℝ))) = .err msg := by
    intro cs
    induction cs with
    | nil => intro _ h; simp at h
    | cons c cs ih =>
      intro done h
      rw [List.foldlM_cons]
      cases c with
      | basic c =>
        rw [Criterion.update, Res.ok_bind, Res.pure_eq, Res.ok_bind]
        exact ih _ (by simpa using h)
      | weighted l =>
        rw [Criterion.update]
        split
        · exact ⟨_, rfl⟩
        · next hl =>
          rw [Res.ok_bind, Res.pure_eq, Res.ok_bind]
          refine ih _ ?_
          rcases List.mem_cons.1 h with e | e
          · injection e with e
            rw [← e] at hl
            simp at hl
          · exact e
  obtain ⟨msg, e⟩ := hfold E.criteria [] h
  refine ⟨msg, ?_⟩
  unfold Penalties.update
  rw [e]
  rfl

end Props

/-- **C79 fails for default values**: the elastic work criterion does not stay in step with the equations.  With the
same list "Penalty Function", which gives an exponent and no step and bound, the
exponents differ after every number of updates until those of the equations have reached the bound. -/
theorem C79_defaults_false {i : PenaltyInput} {p : ℝ} (hi : i = { exponent := some p }) {n : Nat} (hp : p + 0.1 * (n + 1 : Nat) < 4) :
    ((Copies.ofParams fun _ => residualPenalty (some i)).visits (globalVisits 1) (n + 1)).p 0 0 <
      ((Copies.ofParams fun _ => elasticWorkPenalty i).visits (scalarVisits 1) (n + 1)).p 0 0 := by
  subst hi
  rw [(visits_p _ _ _).2.2, (visits_p _ _ _).2.2]
  unfold globalVisits scalarVisits
  rw [count_all (by decide) one_pos (by decide), count_all (by decide) one_pos (by decide), Nat.mul_one]
  simp only [Copies.ofParams, residualPenalty, elasticWorkPenalty, Option.getD_some, Option.getD_none]
  rw [next_iterate (by norm_num), next_iterate (by norm_num)]
  rw [min_eq_right (by linarith)]
  refine lt_min (by linarith) ?_
  have : (0 : ℝ) ≤ n := Nat.cast_nonneg n
  push_cast
  nlinarith

/-- The plastic work criterion stays in step with the equations if its exponent is given. -/
theorem C79_plastic_defaults {i : PenaltyInput} (h : i.exponent.isSome) : plasticWorkPenalty i = residualPenalty (some i) := by
  obtain ⟨e, s, b⟩ := i
  cases e with
  | none => simp at h
  | some e => rfl

/-- **C79 fails for default values** of the exponent as well: with a list "Penalty Function" without exponent the
equations start from 1 and both criteria from 3. -/
theorem C79_exponent_false {i : PenaltyInput} (h : i.exponent = none) :
    (residualPenalty (some i)).exponent = 1 ∧ (plasticWorkPenalty i).exponent = 3 ∧
      (elasticWorkPenalty i).exponent = 3 := by
  simp [residualPenalty, plasticWorkPenalty, elasticWorkPenalty, h]

/-- Without the list the equations start from 3. -/
theorem C79_no_list : residualPenalty none = plasticWorkPenalty {} := rfl

/-! ## The hypotheses can be met -/

/-- Two domains, exponent 1, step 0.1, bound 4. -/
noncomputable def startCopies : Copies ℝ := ⟨fun _ => 0.1, fun _ => 4, fun _ _ => 1⟩

noncomputable def startPenalties : Penalties ℝ :=
  ⟨startCopies, startCopies, startCopies, startCopies, [.basic startCopies, .weighted [startCopies, startCopies]]⟩

theorem start_terms : ∀ c ∈ startPenalties.criteria, c.terms ≠ [] := by
  intro c hc
  have : c = .basic startCopies ∨ c = .weighted [startCopies, startCopies] := by simpa [startPenalties] using hc
  rcases this with rfl | rfl <;> simp [Criterion.terms]

example : (startPenalties.updates geReal 2 5).Sat fun F => ∀ t, t < 5 → F.projection.p 1 t < F.projection.p 0 t :=
  C79_domains_false 2 startPenalties start_terms (q := fun _ => 1) (fun _ _ _ _ => rfl) (by decide) rfl rfl rfl
    (by show (0 : ℝ) < 0.1; norm_num) (n := 4) (by show (1 : ℝ) + (4 + 1 : Nat) * 0.1 < 4; norm_num)

example := C79_exponents 2 startPenalties start_terms (e := fun _ => 1) (p := fun _ => 1) (g := fun _ => 1) (q := fun _ => 1)
  (fun _ _ _ _ => rfl) (fun _ _ _ _ => rfl) (fun _ _ _ _ => rfl) (fun _ _ _ _ => rfl)
  (fun _ _ => by show (0 : ℝ) ≤ 0.1; norm_num) (fun _ _ => by show (0 : ℝ) ≤ 0.1; norm_num)
  (fun _ _ => by show (0 : ℝ) ≤ 0.1; norm_num) (fun _ _ => by show (0 : ℝ) ≤ 0.1; norm_num) 3

end Plato.Plast
