import Verif.Mpmd.File
import Mathlib.Analysis.Calculus.FDeriv.Comp
import Mathlib.Analysis.Calculus.Deriv.Comp

/-!
# Derivatives by design parameters: chain rule and differences (C98)
-/

namespace Plato.Mpmd
open Plato Finset

variable {S : Sim}

theorem mapSum_ok {g d : List ℝ} (h : d.length ≤ g.length) :
    mapSum g d = .ok (∑ i ∈ range d.length, at0 g i * at0 d i) := by
  apply Res.Sat.eq_ok
  unfold mapSum
  refine (forRange_inv (fun j s => s = ∑ i ∈ range j, at0 g i * at0 d i) (Nat.zero_le _) (by simp) ?_)
  intro j s _ hj hs
  rw [rd_at0 (lt_of_lt_of_le hj h), rd_at0 hj]
  simp only [Res.ok_bind, Res.pure_eq, Res.sat_ok]
  rw [hs, sum_range_succ]

/-- The loop over the inputs. -/
theorem mapLoop_ok {g : List ℝ} {vals : Str → Option (List ℝ)} : ∀ (ins : List Str) (k : Nat) (out : List ℝ),
    sSensitivity ∉ ins → k + ins.length ≤ out.length → (∀ n ∈ ins, ((vals n).getD []).length ≤ g.length) →
    ∃ w, mapLoop g vals ins k out = .ok w ∧ w.length = out.length ∧ (∀ j, j < k → at0 w j = at0 out j) ∧
      ∀ j n, ins[j]? = some n → at0 w (k + j) = ∑ i ∈ range ((vals n).getD []).length, at0 g i * at0 ((vals n).getD []) i
  | [], k, out, _, _, _ => ⟨out, rfl, rfl, fun _ _ => rfl, by simp⟩
  | n :: ns, k, out, hs, hl, hg => by
    simp only [List.mem_cons, not_or] at hs
    simp only [List.length_cons] at hl
    have hk : k < out.length := by omega
    have hu : upd vals sSensitivity out n = vals n := by simp [upd, Ne.symm hs.1]
    obtain ⟨w, h1, h2, h3, h4⟩ := mapLoop_ok ns (k + 1)
      (out.set k (∑ i ∈ range ((vals n).getD []).length, at0 g i * at0 ((vals n).getD []) i)) hs.2
      (by rw [List.length_set]; omega) (fun m hm => hg m (by simp [hm]))
    refine ⟨w, ?_, by rw [h2, List.length_set], ?_, ?_⟩
    · rw [mapLoop, hu, mapSum_ok (hg n (by simp)), Res.ok_bind]
      simp only [wr, hk, if_true, Res.ok_bind]
      exact h1
    · intro j hj
      rw [h3 j (by omega), at0_set hk, if_neg (by omega)]
    · intro j m hm
      cases j with
      | zero =>
        simp only [List.getElem?_cons_zero, Option.some.injEq] at hm
        subst hm
        rw [Nat.add_zero, h3 k (by omega), at0_set hk, if_pos rfl]
      | succ j =>
        simp only [List.getElem?_cons_succ] at hm
        have := h4 j m hm
        rwa [show k + 1 + j = k + (j + 1) by omega] at this

/-- **C98.**  `MapCriterionGradientX` is the chain rule: if the stored gradient is the derivative of the criterion by the
coordinates, and the imported inputs are the derivatives of the coordinates by the design parameters, then the entries of
"Criterion Sensitivity" are the derivatives of the criterion by the design parameters, in the order of the inputs, for any
number of coordinates and parameters.

Partial: "Criterion Sensitivity" has as many entries as the operation has inputs, which the last constructed operation
decides (`C98_two_false`). -/
theorem C98_chain_partial {a : App S} {o c : Str} {op : Op} {ins : List Str} {g s : List ℝ} {n : Nat}
    (hk : op.kind = .mapX c ins) (hg : a.gradsX c = some g) (hn : g.length = n)
    (hs : a.vals sSensitivity = some s) (hl : s.length = ins.length) (hi : sSensitivity ∉ ins)
    (hv : ∀ x ∈ ins, ∃ d, a.vals x = some d ∧ d.length = n) :
    ∃ b w, runOp o op a = .ok () b ∧ b.vals sSensitivity = some w ∧ w.length = ins.length ∧
      ∀ (J : (Fin n → ℝ) → ℝ) (L : (Fin n → ℝ) →L[ℝ] ℝ) (x₀ : Fin n → ℝ), HasFDerivAt J L x₀ →
        (∀ e, L e = ∑ i : Fin n, at0 g i * e i) →
        ∀ (j : Nat) (x : Str) (d : List ℝ) (X : ℝ → Fin n → ℝ) (p₀ : ℝ), ins[j]? = some x → a.vals x = some d →
          X p₀ = x₀ → HasDerivAt X (fun i => at0 d i) p₀ → HasDerivAt (fun p => J (X p)) (at0 w j) p₀ := by
  obtain ⟨w, h1, h2, _, h4⟩ := mapLoop_ok (g := g) (vals := a.vals) ins 0 s hi (by omega) (by
    intro x hx
    obtain ⟨d, e1, e2⟩ := hv x hx
    rw [e1, Option.getD_some, e2, hn])
  refine ⟨{ a with vals := upd a.vals sSensitivity w }, w, ?_, by simp [upd], h2.trans hl, ?_⟩
  · unfold runOp
    rw [hk]
    dsimp only
    rw [bind_run (get_run _), hg, hs, Option.getD_some, Option.getD_some, bind_run (lift_run_ok h1 _)]
    rfl
  · intro J L x₀ hJ hL j x d X p₀ hj hd hx hX
    have hmem : x ∈ ins := List.mem_of_getElem? hj
    obtain ⟨d', e1, e2⟩ := hv x hmem
    rw [hd] at e1
    cases e1
    have hw := h4 j x hj
    rw [hd, Option.getD_some, e2, Nat.zero_add] at hw
    rw [← hx] at hJ
    have := hJ.comp_hasDerivAt p₀ hX
    rw [hL, Fin.sum_univ_eq_sum_range (fun i => at0 g i * at0 d i) n, ← hw] at this
    exact this

/-- **C98, what is false.**  Two operations with different numbers of inputs: the constructor of the second replaces the
result of the first, and the first writes past its end. -/
theorem C98_two_false : ∃ a b : App toy,
    initApp [kNode ['p'] ['d'] (.mapX ['c'] [['x'], ['y']]), kNode ['q'] ['d'] (.mapX ['c'] [['x']])] (toyApp 2) =
      .ok () a ∧ exec [.importValue ['x'] [], .importValue ['y'] []] a = .ok () b ∧ compute ['p'] b = .ub :=
  ⟨_, _, rfl, rfl, rfl⟩

/-- **C98, what is false.**  An input with more entries than the gradient reads past the end of the gradient, for every
gradient and every input. -/
theorem C98_length_false {g d : List ℝ} (h : g.length < d.length) : mapSum g d = .ub := by
  have key : ∀ (j : Nat) (s : ℝ), j ≤ g.length → forRange j d.length s (fun i v => do
      let x ← rd g i
      let y ← rd d i
      pure (v + x * y)) = .ub := by
    intro j
    induction hm : g.length - j generalizing j with
    | zero =>
      intro s hj
      have : j = g.length := by omega
      subst this
      rw [forRange_succ h]
      have : rd g g.length = .ub := by simp [rd]
      rw [this]
      rfl
    | succ m ih =>
      intro s hj
      rw [forRange_succ (by omega), rd_at0 (by omega : j < g.length), rd_at0 (by omega : j < d.length)]
      simp only [Res.ok_bind, Res.pure_eq]
      exact ih (j + 1) (by omega) _ (by omega)
  exact key 0 0 (Nat.zero_le _)

/-- `std::round` of a whole number. -/
theorem roundAway_nat (i : Nat) : roundAway (i : ℝ) = (i : Int) := by
  unfold roundAway
  rw [if_pos (by positivity), Int.floor_eq_iff]
  constructor
  · push_cast; linarith
  · push_cast; linarith

/-- **C98.**  `ComputeFiniteDifference` writes the difference quotient to the entry of the perturbed parameter and leaves
the other entries; if the two values belong to a function whose remainder at the increment is at most `C δ²`, the
distance of the entry to the slope is at most `C |δ|`.

Partial: with the parameter "Perturbed Index" (`C98_index_false`), an index of the vector (`C98_bounds_false`), and
"Vector Length" in the input (`C98_vector_false`). -/
theorem C98_difference_partial {a : App S} {o : Str} {op : Op} {δ : ℝ} {i : Nat} {q : Parm} {out : List ℝ} {p₁ p₀ : ℝ}
    {r₁ r₀ : List ℝ} (hk : op.kind = .difference δ) (hq : op.parms sIndex = some q) (hi : q.value = i)
    (ho : a.vals sGradient = some out) (hlen : i < out.length) (h1 : a.vals sPerturbed = some (p₁ :: r₁))
    (h0 : a.vals sInitial = some (p₀ :: r₀)) (hδ : δ ≠ 0) :
    ∃ b w, runOp o op a = .ok () b ∧ b.vals sGradient = some w ∧ w.length = out.length ∧
      at0 w i = (p₁ - p₀) / δ ∧ (∀ j, j ≠ i → at0 w j = at0 out j) ∧
      ∀ C s : ℝ, |p₁ - p₀ - δ * s| ≤ C * δ ^ 2 → |at0 w i - s| ≤ C * |δ| := by
  refine ⟨{ a with vals := upd a.vals sGradient (out.set i ((p₁ - p₀) / δ)) }, out.set i ((p₁ - p₀) / δ), ?_,
    by simp [upd], by simp, by rw [at0_set hlen, if_pos rfl], fun j hj => by rw [at0_set hlen, if_neg hj], ?_⟩
  · unfold runOp
    rw [hk]
    dsimp only
    unfold difference
    rw [bind_run (get_run _), hq]
    dsimp only
    rw [h1, Option.getD_some, bind_run (lift_run_ok (show rd (p₁ :: r₁) 0 = .ok p₁ from rfl) _), h0, Option.getD_some,
      bind_run (lift_run_ok (show rd (p₀ :: r₀) 0 = .ok p₀ from rfl) _), hi, roundAway_nat, if_neg (by omega),
      ho, Option.getD_some, Int.toNat_natCast,
      bind_run (lift_run_ok (show wr out i ((p₁ - p₀) / δ) = .ok (out.set i ((p₁ - p₀) / δ)) by simp [wr, hlen]) _)]
    rfl
  · intro C s hC
    rw [at0_set hlen, if_pos rfl]
    have h3 : (p₁ - p₀) / δ - s = (p₁ - p₀ - δ * s) / δ := by field_simp
    rw [h3, abs_div, div_le_iff₀ (abs_pos.mpr hδ)]
    calc |p₁ - p₀ - δ * s| ≤ C * δ ^ 2 := hC
      _ = C * |δ| * |δ| := by rw [← sq_abs]; ring

/-- The operation for differences with an index `i`. -/
noncomputable def diffApp (parms : Str → Option Parm) (out : List ℝ) : App toy := { toyApp 2 with
  vals := fun x => if x = sGradient then some out else if x = sPerturbed then some [3] else if x = sInitial then some [1]
    else none
  ops := fun _ => some ⟨.difference 1, ['d'], parms, []⟩ }

/-- **C98, what is false.**  Without the parameter "Perturbed Index" the increment is zero: for values 1 and 3 at an
increment of 1, the entry is not 2. -/
theorem C98_index_false : ∃ b w, runOp ['p'] ⟨.difference 1, ['d'], fun _ => none, []⟩ (diffApp (fun _ => none) [0]) =
    .ok () b ∧ b.vals sGradient = some w ∧ at0 w 0 ≠ 2 := by
  refine ⟨_, _, rfl, rfl, ?_⟩
  change ((3 : ℝ) - 1) / 0 ≠ 2
  norm_num

/-- **C98, what is false.**  The index is not compared with the length of the vector. -/
theorem C98_bounds_false : runOp (S := toy) ['p'] ⟨.difference 1, ['d'], fun _ => some ⟨[], 1⟩, []⟩
    (diffApp (fun _ => some ⟨[], 1⟩) [0]) = .ub := by
  unfold runOp difference
  dsimp only
  rw [bind_run (get_run _)]
  have : roundAway (1 : ℝ) = 1 := by
    have := roundAway_nat 1
    simpa using this
  rw [this]
  rfl

/-- **C98, what is false.**  Without the parameter "Vector Length" the constructor dereferences a null pointer. -/
theorem C98_vector_false : initApp [kNode ['p'] ['d'] (.difference 1)] (toyApp 2) = .ub := rfl

/-- The hypotheses of `C98_chain_partial` are met by two parameters and two coordinates. -/
example : ∃ a : App toy, a.gradsX ['c'] = some [2, 3] ∧ a.vals sSensitivity = some [0, 0] ∧ sSensitivity ∉ [['x'], ['y']] ∧
    ∀ x ∈ [['x'], ['y']], ∃ d, a.vals x = some d ∧ d.length = 2 := by
  refine ⟨{ toyApp 2 with
    gradsX := fun _ => some [2, 3]
    vals := fun x => if x = sSensitivity then some [0, 0] else some [1, 5] }, rfl, rfl, by decide, ?_⟩
  intro x hx
  refine ⟨[1, 5], ?_, rfl⟩
  have : x ≠ sSensitivity := by
    rintro rfl
    revert hx
    decide
  simp [this]

/-- The hypotheses of `C98_difference_partial` are met. -/
example : ∃ a : App toy, a.vals sGradient = some [7, 0] ∧ a.vals sPerturbed = some [3] ∧ a.vals sInitial = some [1] ∧
    (∃ op q, a.ops ['p'] = some op ∧ op.kind = .difference 1 ∧ op.parms sIndex = some q ∧ q.value = ((1 : Nat) : ℝ)) :=
  ⟨diffApp (fun _ => some ⟨[], ((1 : Nat) : ℝ)⟩) [7, 0], rfl, rfl, rfl, _, _, rfl, rfl, rfl, rfl⟩

end Plato.Mpmd
