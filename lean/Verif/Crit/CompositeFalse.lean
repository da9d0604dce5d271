import Verif.Crit.SolutionProps

/-!
# C26: constructors, concrete instances and refutations
-/

namespace Plato.Crit
open Finset Plato Plato.Mech Filter Topology

/-! ## Constructors -/

theorem take_succ_at {α : Type} {l : List α} {k : Nat} (hk : k < l.length) :
    l.take k ++ [l[k]] = l.take (k + 1) := by
  rw [List.take_add_one]
  simp [hk]

/-- **C26, constructor of weighted sums.**  The components are the named criteria in order, each with
its weight. -/
theorem C26_weighted_init {α : Type} {p : Params} {name : String} {create : String → Res α}
    {names : List String} {ws : List ℝ} (h1 : (p "Criteria" name).functions = some names)
    (h2 : (p "Criteria" name).weights = some ws) (hl : names.length = ws.length)
    (hc : ∀ nm ∈ names, ∃ f, create nm = .ok f) :
    (weightedInit p name create).Sat fun r => r.2 = ws ∧ r.1.length = names.length ∧
      r.1.map Res.ok = names.map create := by
  unfold weightedInit
  rw [h1, h2]
  simp only [get, Res.ok_bind]
  rw [if_neg (by omega)]
  refine (forRange_inv (fun k (s : List α × List ℝ) => s.2 = ws.take k ∧ s.1.length = k ∧
    s.1.map Res.ok = (names.take k).map create) (Nat.zero_le _) (by simp) ?_).mono ?_
  · rintro k ⟨fs, vs⟩ - hk ⟨rfl, hfl, hf⟩
    obtain ⟨f, hf'⟩ := hc _ (List.getElem_mem hk)
    rw [rd_eq hk, Res.ok_bind, hf', Res.ok_bind, rd_eq (by omega), Res.ok_bind]
    simp only [Res.pure_eq, Res.sat_ok]
    refine ⟨take_succ_at (by omega), by simp [hfl], ?_⟩
    rw [← take_succ_at hk, List.map_append, List.map_append, hf]
    simp [hf']
  · rintro ⟨fs, vs⟩ ⟨rfl, hfl, hf⟩
    exact ⟨by rw [hl]; simp, hfl, by simpa using hf⟩

/-- Lists of different lengths are rejected. -/
theorem C26_weighted_init_rejects {α : Type} {p : Params} {name : String} {create : String → Res α}
    {names : List String} {ws : List ℝ} (h1 : (p "Criteria" name).functions = some names)
    (h2 : (p "Criteria" name).weights = some ws) (hl : names.length ≠ ws.length) :
    ∃ m, weightedInit p name create = .err m := by
  unfold weightedInit
  rw [h1, h2]
  simp only [get, Res.ok_bind]
  rw [if_pos hl]
  exact ⟨_, rfl⟩

/-- **C26, constructor of least squares.**  Components, weights and gold values in order, and scales
that are never zero. -/
theorem C26_least_init {α : Type} {sec : String} {p : Params} {name : String} {create : String → Res α}
    {names : List String} {ws gold : List ℝ} (h1 : (p sec name).functions = some names)
    (h2 : (p sec name).weights = some ws) (h3 : (p sec name).gold = some gold)
    (hl : names.length = ws.length) (hl' : names.length = gold.length)
    (hc : ∀ nm ∈ names, ∃ f, create nm = .ok f) :
    (leastInit sec p name create).Sat fun r => r.1.length = names.length ∧
      r.1.map Res.ok = names.map create ∧ r.2.weights = ws ∧ r.2.gold = gold ∧ r.2.stateZero = false ∧
      r.2.scale = gold.map (fun g => if |g| > 1 / 10 then |g| else 1) ∧ ∀ c ∈ r.2.scale, 0 < c := by
  unfold leastInit
  rw [h1, h2, h3]
  simp only [get, Res.ok_bind]
  rw [if_neg (by omega), if_neg (by omega)]
  refine (forRange_inv (fun k (s : List α × LeastSquares) => s.1.length = k ∧
    s.1.map Res.ok = (names.take k).map create ∧ s.2.weights = ws.take k ∧ s.2.gold = gold.take k ∧
    s.2.stateZero = false ∧ s.2.scale = (gold.take k).map (fun g => if |g| > 1 / 10 then |g| else 1))
    (Nat.zero_le _) (by simp) ?_).mono ?_
  · rintro k ⟨fs, L⟩ - hk ⟨hfl, hf, hw, hg, hz, hs⟩
    obtain ⟨f, hf'⟩ := hc _ (List.getElem_mem hk)
    rw [rd_eq hk, Res.ok_bind, hf', Res.ok_bind, rd_eq (by omega), Res.ok_bind, rd_eq (by omega), Res.ok_bind]
    simp only [Res.pure_eq, Res.sat_ok]
    refine ⟨by simp [hfl], ?_, ?_, ?_, ?_, ?_⟩
    · rw [← take_succ_at hk, List.map_append, List.map_append, hf]
      simp [hf']
    · simp only [LeastSquares.appendGold, LeastSquares.appendWeight, if_true] at *
      rw [hw, take_succ_at (by omega)]
    · simp only [LeastSquares.appendGold, LeastSquares.appendWeight, if_true] at *
      rw [hg, take_succ_at (by omega)]
    · simp only [LeastSquares.appendGold, LeastSquares.appendWeight, if_true] at *
      exact hz
    · simp only [LeastSquares.appendGold, LeastSquares.appendWeight, if_true, cutoff] at *
      rw [hs, ← take_succ_at (l := gold) (k := k) (by omega), List.map_append]
      simp
  · rintro ⟨fs, L⟩ ⟨hfl, hf, hw, hg, hz, hs⟩
    rw [show names.length = gold.length from hl'] at hs hg
    rw [show names.length = ws.length from hl] at hw
    simp only [List.take_length] at hf hw hg hs
    refine ⟨hfl, hf, hw, hg, hz, hs, fun c hcm => ?_⟩
    rw [hs] at hcm
    obtain ⟨g, -, rfl⟩ := List.mem_map.1 hcm
    split_ifs with h
    · linarith
    · norm_num

/-- **C26 is false of the elliptic least squares criterion as an input block.**  Whatever the block of
the criterion in the `Criteria` section says, the constructor fails, unless there is another block in
a section called `Criterial`. -/
theorem C26_least_input_false {α : Type} {p : Params} {name : String} {create : String → Res α}
    (h : (p "Criterial" name).functions = none) : ∃ m, ellipticLeastInit p name create = .err m := by
  unfold ellipticLeastInit leastInit
  rw [h]
  exact ⟨_, rfl⟩

/-- The input that shows it: one function, one weight, one gold value in the section `Criteria`; the
geometric constructor accepts it. -/
noncomputable def exParams : Params := fun sec _ =>
  if sec = "Criteria" then ⟨some ["Volume"], some [1], some [2], none, none⟩ else {}

example : (∃ r, geoLeastInit exParams "Fit" (fun _ => Res.ok 7) = .ok r) ∧
    ∃ m, ellipticLeastInit exParams "Fit" (fun _ => Res.ok 7) = .err m := by
  constructor
  · obtain ⟨r, h, -⟩ := C26_least_init (sec := "Criteria") (p := exParams) (name := "Fit")
      (create := fun _ => Res.ok 7) (names := ["Volume"]) (ws := [1]) (gold := [2]) rfl rfl rfl rfl rfl
      (fun _ _ => ⟨7, rfl⟩)
    exact ⟨r, h⟩
  · exact C26_least_input_false rfl

/-! ## The gradient of a quotient is not guarded -/

/-- **C26 is false of the gradients of a quotient.**  When the denominator is zero the gradients are
still reported: only `value` rejects. -/
theorem C26_division_gradient_false {f h : Criterion} {nx nu nz : Nat} {order : List Nat}
    (ho : IsSchedule order nz) {s : List (List ℝ)} {z x : List ℝ} {dt v : ℝ} {gf gh : List ℝ}
    (hf : f.value s z x dt = .ok v) (hh : h.value s z x dt = .ok 0) (hgf : f.gradZ s z x dt = .ok gf)
    (hgh : h.gradZ s z x dt = .ok gh) (hl : gf.length = nz) (hl' : gh.length = nz) :
    (∃ m, (division f h nx nu nz order).value s z x dt = .err m) ∧
    ∃ g, (division f h nx nu nz order).gradZ s z x dt = .ok g := by
  refine ⟨C26_division_rejects f h nx nu nz order s z x dt hf hh, ?_⟩
  obtain ⟨r, hr, -⟩ := parFor_map ho
    (body := fun q r => do
      let x ← rd gf q
      let y ← rd gh q
      wr r q ((x * 0 - y * v) / 0 ^ 2))
    (fun q _ => (at0 gf q * 0 - at0 gh q * v) / 0 ^ 2) (y0 := List.replicate nz 0)
    (fun q y hq hy => by
      rw [rd_at0 (by omega), Res.ok_bind, rd_at0 (by omega), Res.ok_bind, wr_eq (by omega)]) (by simp)
  refine ⟨r, ?_⟩
  show quotGrad _ _ _ _ _ _ = _
  unfold quotGrad
  rw [hf, Res.ok_bind, hh, Res.ok_bind, hgf, Res.ok_bind, hgh, Res.ok_bind]
  exact hr

/-! ## Later steps -/

/-- One node, one component, magnitude. -/
noncomputable def exS : Solution := ⟨[1], [0], true⟩

/-- The criterion of `exS` on a mesh of one node. -/
noncomputable def exF : Criterion := solutionCrit exS 1 1 1 [[0]] [0]

/-- Two steps: at rest, then displaced by one. -/
noncomputable def exStates : List (List ℝ) := [[0], [1]]

theorem exS_val (t : ℝ) : nodeVal exS [t] 0 = |t| := by
  simp [nodeVal, exS, at0, Real.sqrt_sq_eq_abs]

theorem exF_ok (dt : ℝ) : Differentiates exF 1 1 1 exStates (fun _ => 0) (fun _ => 0) 1 (fun _ => 1) dt := by
  refine C26_solution (S := exS) (nn := 1) (ch := [[0]]) (order := [0]) (List.Perm.refl _) (List.Perm.refl _)
    (by simp [exS]) (by simp [exS]) (k := 1) rfl (u := fun _ => 1) ?_ ?_ _ _ dt
  · simp [exStates, exS]
  · intro _ a ha
    obtain rfl : a = 0 := by simpa [exS] using ha
    have : List.ofFn (fun _ : Fin (exS.normal.length * 1) => (1 : ℝ)) = [1] := by
      simp [exS]
    rw [this, exS_val]
    norm_num

theorem exF_value (t dt : ℝ) : exF.value (exStates.set 1 [t]) [0] [0] dt = .ok |t| := by
  have := Solution.value_ok (S := exS) (u := [t]) (nn := 1) (ch := [[0]]) (List.Perm.refl _) (by simp [exS])
    (s := exStates.set 1 [t]) (by simp [exStates]) (by simp [exS])
  show exS.value _ _ = _
  rw [this]
  have h0 : at0 exS.nodes 0 = 0 := by simp [exS, at0]
  have h1 : exS.nodes.length = 1 := rfl
  simp [h1, h0, exS_val]

theorem exF_grad0 (dt : ℝ) : exF.gradU exStates [0] [0] 0 dt = .ok [0] := by
  show exS.gradU 1 [0] exStates 0 = _
  simp [Solution.gradU, exStates, exS, parFor, nodeGrad, nodeLength, rd, wr, forRange, forUp]

/-- The slope of a function that is the absolute value of the only variable is not zero at one. -/
theorem not_reports {value : List ℝ → Res ℝ} {grad : Res (List ℝ)} (φ : ℝ → ℝ) {c : ℝ} (hc : c ≠ 0)
    (hφ : HasDerivAt φ c 1) (hv : ∀ t, value [t] = .ok (φ t)) (hg : grad = .ok [0]) :
    ¬ Reports 1 value grad (fun _ => 1) := by
  intro h
  obtain ⟨f, g, hv', hg', -, hd⟩ := h.partials
  rw [hg] at hg'
  obtain rfl := (Res.ok.inj hg').symm
  have h1 := hd 0
  have e : (fun t : ℝ => f (Function.update (fun _ : Fin 1 => (1 : ℝ)) 0 t)) =ᶠ[𝓝 1] φ := by
    have hc' : Tendsto (fun t : ℝ => Function.update (fun _ : Fin 1 => (1 : ℝ)) 0 t) (𝓝 1)
        (𝓝 (fun _ => 1)) := by
      have := (hasDerivAt_update (fun _ : Fin 1 => (1 : ℝ)) 0 (1 : ℝ)).continuousAt
      have h2 : Function.update (fun _ : Fin 1 => (1 : ℝ)) 0 (1 : ℝ) = fun _ => 1 := by
        funext i
        rw [Subsingleton.elim i 0, Function.update_self]
      rwa [ContinuousAt, h2] at this
    filter_upwards [hc'.eventually hv'] with t ht
    have h3 : List.ofFn (Function.update (fun _ : Fin 1 => (1 : ℝ)) 0 t) = [t] := by simp
    rw [h3, hv] at ht
    exact (Res.ok.inj ht).symm
  have h2 := (hφ.congr_of_eventuallyEq e).unique h1
  simp [at0] at h2
  exact hc h2

theorem abs_slope : HasDerivAt (fun t : ℝ => |t|) 1 1 := by
  refine (hasDerivAt_id (1 : ℝ)).congr_of_eventuallyEq ?_
  filter_upwards [lt_mem_nhds (show (0 : ℝ) < 1 by norm_num)] with t ht
  exact abs_of_pos ht

/-- **C26 is false of weighted sums at later steps.**  The component differentiates at the second step;
the weighted sum with the single weight one does not, because it asks the component for the gradient
of the first step. -/
theorem C26_weighted_u_false : ∃ (fs : List Criterion) (ws : List ℝ) (s : List (List ℝ)),
    (∀ f ∈ fs, Differentiates f 1 1 1 s (fun _ => 0) (fun _ => 0) 1 (fun _ => 1) 0) ∧
    ws.length = fs.length ∧
    ¬ Reports 1 (fun y => (weightedSum fs ws 1 1 1 fun _ => [0]).value (s.set 1 y) [0] [0] 0)
      ((weightedSum fs ws 1 1 1 fun _ => [0]).gradU s [0] [0] 1 0) (fun _ => 1) := by
  refine ⟨[exF], [1], exStates, by simpa using exF_ok 0, rfl, ?_⟩
  refine not_reports (fun t => |t|) one_ne_zero abs_slope (fun t => ?_) ?_
  · simp [weightedSum, weightedValue, forRange, forUp, rd, exF_value]
  · simp [weightedSum, weightedGrad, forRange, forUp, rd, toOrdinal_zero, exF_grad0, parFor, wr]

/-- The constant criterion with value one. -/
noncomputable def oneCrit : Criterion where
  value _ _ _ _ := .ok 1
  gradX _ _ _ _ := .ok [0]
  gradU _ _ _ _ _ := .ok [0]
  gradZ _ _ _ _ := .ok [0]

theorem oneCrit_ok (s : List (List ℝ)) (z x u : Fin 1 → ℝ) (k : Nat) (dt : ℝ) :
    Differentiates oneCrit 1 1 1 s z x k u dt := by
  have h : ∀ p : Fin 1 → ℝ, Reports 1 (fun _ => .ok 1) (.ok [0]) p := fun p => by
    refine ⟨fun _ => 1, [0], Eventually.of_forall fun _ => rfl, rfl, rfl, ?_⟩
    refine (hasFDerivAt_const (1 : ℝ) p).congr_fderiv ?_
    ext y
    simp [lin_apply, at0]
  exact ⟨h x, h u, h z⟩

/-- **C26 is false of quotients at later steps.** -/
theorem C26_division_u_false : ∃ (f h : Criterion) (s : List (List ℝ)),
    Differentiates f 1 1 1 s (fun _ => 0) (fun _ => 0) 1 (fun _ => 1) 0 ∧
    Differentiates h 1 1 1 s (fun _ => 0) (fun _ => 0) 1 (fun _ => 1) 0 ∧
    ¬ Reports 1 (fun y => (division f h 1 1 1 [0]).value (s.set 1 y) [0] [0] 0)
      ((division f h 1 1 1 [0]).gradU s [0] [0] 1 0) (fun _ => 1) := by
  refine ⟨exF, oneCrit, exStates, exF_ok 0, oneCrit_ok _ _ _ _ _ _, ?_⟩
  refine not_reports (fun t => |t|) one_ne_zero abs_slope (fun t => ?_) ?_
  · simp [division, quotValue, exF_value, oneCrit]
  · have h := exF_value 1 0
    have e : exStates.set 1 [1] = exStates := rfl
    rw [e] at h
    simp [division, quotGrad, toOrdinal_zero, exF_grad0, h, oneCrit, parFor, wr, rd]

/-- **C26 is false of least squares at later steps.** -/
theorem C26_least_u_false : ∃ (fs : List Criterion) (L : LeastSquares) (s : List (List ℝ)),
    (∀ f ∈ fs, Differentiates f 1 1 1 s (fun _ => 0) (fun _ => 0) 1 (fun _ => 1) 0) ∧
    L.weights.length = fs.length ∧ L.gold.length = fs.length ∧ L.scale.length = fs.length ∧
    ¬ Reports 1 (fun y => (leastSquares fs L 1 1 1 fun _ => [0]).value (s.set 1 y) [0] [0] 0)
      ((leastSquares fs L 1 1 1 fun _ => [0]).gradU s [0] [0] 1 0) (fun _ => 1) := by
  refine ⟨[exF], ⟨[1], [0], [1], false⟩, exStates, by simpa using exF_ok 0, rfl, rfl, rfl, ?_⟩
  refine not_reports (fun t => |t| ^ 2) (c := 2) two_ne_zero ?_ (fun t => ?_) ?_
  · simp only [sq_abs]
    simpa using hasDerivAt_pow 2 (1 : ℝ)
  · simp [leastSquares, leastValue, forRange, forUp, rd, exF_value]
  · have h := exF_value 1 0
    have e : exStates.set 1 [1] = exStates := rfl
    rw [e] at h
    simp [leastSquares, leastGrad, forRange, forUp, rd, toOrdinal_zero, exF_grad0, h, parFor, wr]

/-- **C26 is false of the average of the solution at earlier steps.**  The value does not depend on the
first of two states; the gradient reported for it is not zero. -/
theorem C26_solution_u_false : ∃ (S : Solution) (s : List (List ℝ)),
    (∀ t, S.value [[0]] (s.set 0 [t]) = S.value [[0]] s) ∧ (∃ v, S.value [[0]] s = .ok v) ∧
    S.gradU 1 [0] s 0 = .ok [1] := by
  refine ⟨⟨[1], [0], false⟩, [[0], [0]], fun t => ?_, ?_, ?_⟩
  · simp [Solution.value, rd]
  · have := Solution.value_ok (S := ⟨[1], [0], false⟩) (u := [0]) (nn := 1) (ch := [[0]]) (List.Perm.refl _)
      (by simp) (s := [[0], [0]]) rfl rfl
    exact ⟨_, this⟩
  · simp [Solution.gradU, parFor, nodeGrad, rd, wr, forRange, forUp]

/-! ## Instances of the hypotheses -/

/-- One step, displaced by one. -/
theorem exF_single (dt : ℝ) : Differentiates exF 1 1 1 [[1]] (fun _ => 0) (fun _ => 0) 0 (fun _ => 1) dt := by
  refine C26_solution (S := exS) (nn := 1) (ch := [[0]]) (order := [0]) (List.Perm.refl _) (List.Perm.refl _)
    (by simp [exS]) (by simp [exS]) (k := 0) rfl (u := fun _ => 1) ?_ ?_ _ _ dt
  · simp [exS]
  · intro _ a ha
    obtain rfl : a = 0 := by simpa [exS] using ha
    have : List.ofFn (fun _ : Fin (exS.normal.length * 1) => (1 : ℝ)) = [1] := by
      simp [exS]
    rw [this, exS_val]
    norm_num

/-- Two components, weights two and minus three. -/
example : Reports 1
    (fun y => (weightedSum [exF, oneCrit] [2, -3] 1 1 1 fun _ => [0]).value ([[1]].set 0 y) [0] [0] 0)
    ((weightedSum [exF, oneCrit] [2, -3] 1 1 1 fun _ => [0]).gradU [[1]] [0] [0] 0 0) (fun _ => 1) :=
  C26_weighted_u (nx := 1) (nz := 1) (s := [[1]]) (z := fun _ => 0) (x := fun _ => 0) rfl
    (fun _ _ => List.Perm.refl _) fun f hf => by
      rcases List.mem_cons.1 hf with rfl | hf
      · exact exF_single 0
      · obtain rfl : f = oneCrit := by simpa using hf
        exact oneCrit_ok _ _ _ _ _ _

/-- A quotient with a denominator that is not zero. -/
example : Reports 1 (fun y => (division oneCrit exF 1 1 1 [0]).value ([[1]].set 0 y) [0] [0] 0)
    ((division oneCrit exF 1 1 1 [0]).gradU [[1]] [0] [0] 0 0) (fun _ => 1) :=
  C26_division_u (nx := 1) (nz := 1) (s := [[1]]) (z := fun _ => 0) (x := fun _ => 0) (List.Perm.refl _)
    (by simp) (oneCrit_ok _ _ _ _ _ _) (exF_single 0) (by
      have := Solution.value_ok (S := exS) (u := [1]) (nn := 1) (ch := [[0]]) (List.Perm.refl _) (by simp [exS])
        (s := [[1]]) (by simp) (by simp [exS])
      have h : exF.value [[1]] (List.ofFn fun _ : Fin 1 => (0 : ℝ)) (List.ofFn fun _ : Fin 1 => (0 : ℝ)) 0 = .ok 1 := by
        show exS.value _ _ = _
        rw [this]
        have h0 : at0 exS.nodes 0 = 0 := by simp [exS, at0]
        have h1 : exS.nodes.length = 1 := rfl
        simp [h1, h0, exS_val]
      rw [h]
      intro h'
      exact one_ne_zero (Res.ok.inj h'))

/-- Least squares with gold value three. -/
example : Reports 1
    (fun y => (leastSquares [exF] ⟨[2], [3], [3], false⟩ 1 1 1 fun _ => [0]).value ([[1]].set 0 y) [0] [0] 0)
    ((leastSquares [exF] ⟨[2], [3], [3], false⟩ 1 1 1 fun _ => [0]).gradU [[1]] [0] [0] 0 0) (fun _ => 1) :=
  C26_least_u (nx := 1) (nz := 1) (s := [[1]]) (z := fun _ => 0) (x := fun _ => 0) rfl rfl rfl rfl
    (fun _ _ => List.Perm.refl _) (by simp) (by simpa using exF_single 0)

end Plato.Crit
