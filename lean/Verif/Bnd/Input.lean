import Verif.Bnd.InputModel
import Verif.Plast.GlobalModel
import Mathlib.Tactic.IntervalCases

/-!
# Input of natural boundary conditions (C80)
-/

namespace Plato.Bnd
open Plato

/-- Names of the components of a traction. -/
def componentNames : List (String × Nat) := [("x", 0), ("X", 0), ("y", 1), ("Y", 1), ("z", 2), ("Z", 2)]

/-- What a block asks for when a traction has `n` components: the traction at each time. -/
inductive Asks (n : Nat) (b : Block) : (ℝ → Nat → ℝ) → Prop
  | values {v : List ℝ} (t : b.type? = some "Uniform") (h : b.values? = some (.nums v)) (h0 : b.value? = none)
      (l : v.length = n) : Asks n b fun _ k => v.getD k 0
  | functions {v : List (ℝ → ℝ)} (t : b.type? = some "Uniform") (h : b.values? = some (.exprs v)) (h0 : b.value? = none)
      (l : v.length = n) : Asks n b fun s k => (v.getD k fun _ => 0) s
  | value {a : ℝ} {i : Nat} (t : b.type? = some "Uniform") (h : b.value? = some (.num a)) (h0 : b.values? = none)
      (hi : b.index?.getD 0 = i) (l : i < n) : Asks n b fun _ k => if k = i then a else 0
  | function {f : ℝ → ℝ} {i : Nat} (t : b.type? = some "Uniform") (h : b.value? = some (.expr f)) (h0 : b.values? = none)
      (hi : b.index?.getD 0 = i) (l : i < n) : Asks n b fun s k => if k = i then f s else 0
  | component {a : ℝ} {c : String} {i : Nat} (t : b.type? = some "Uniform Component") (h : b.value? = some (.num a))
      (hc : b.component? = some c) (hi : (c, i) ∈ componentNames) (l : i < n) :
      Asks n b fun _ k => if k = i then a else 0

/-- The block asks for the pressure `p`. -/
structure AsksPressure (b : Block) (p : ℝ) : Prop where
  t : b.type? = some "Uniform Pressure"
  v : b.value? = some (.num p)

/-- The block holds an entry that has no place in a traction of `n` components. -/
inductive Dropped (n : Nat) (b : Block) : Prop
  | nums {v : List ℝ} (h : b.values? = some (.nums v)) (l : n < v.length)
  | exprs {v : List (ℝ → ℝ)} (h : b.values? = some (.exprs v)) (l : n < v.length)
  | value (h : b.value? = some .other)
  | values (h : b.values? = some .other)

/-- The block asks for an entry that is not there: writing or reading it is undefined. -/
inductive Outside (Y : Layout) (b : Block) : Prop
  | nums {v : List ℝ} {s : String} (t : b.type? = some "Uniform") (h : b.values? = some (.nums v))
      (h0 : b.value? = none ∨ b.value? = some .other) (hs : b.sides? = some s) (l : v.length < Y.numDofs)
  | exprs {v : List (ℝ → ℝ)} {s : String} (t : b.type? = some "Uniform") (h : b.values? = some (.exprs v))
      (h0 : b.value? = none ∨ b.value? = some .other) (hs : b.sides? = some s) (l : v.length < Y.numDofs)
  | index {w : ValueEntry} (t : b.type? = some "Uniform") (h : b.value? = some w) (hw : w ≠ .other)
      (h0 : b.values? = none ∨ b.values? = some .other) (l : ¬ (0 ≤ b.index?.getD 0 ∧ b.index?.getD 0 < Y.numDofs))
  | component {a : ℝ} {c : String} {i : Nat} (t : b.type? = some "Uniform Component") (h : b.value? = some (.num a))
      (hc : b.component? = some c) (hi : (c, i) ∈ componentNames) (l : Y.numDofs ≤ i) (h0 : i = 0 ∨ i < Y.dofsPerNode)

/-- A list being filled from the front. -/
def filled {α : Type} (n : Nat) (z : α) (g : Nat → α) (i : Nat) : List α :=
  (List.range n).map fun k => if k < i then g k else z

theorem filled_zero {α : Type} (n : Nat) (z : α) (g : Nat → α) : filled n z g 0 = List.replicate n z := by
  simp [filled]

theorem filled_length {α : Type} (n : Nat) (z : α) (g : Nat → α) (i : Nat) : (filled n z g i).length = n := by simp [filled]

theorem wr_filled {α : Type} {n i : Nat} (z : α) (g : Nat → α) (h : i < n) :
    wr (filled n z g i) i (g i) = .ok (filled n z g (i + 1)) := by
  unfold wr
  rw [if_pos (by rw [filled_length]; exact h)]
  congr 1
  refine List.ext_getElem (by simp [filled]) fun j h1 h2 => ?_
  rw [List.getElem_set]
  simp only [filled, List.getElem_map, List.getElem_range]
  split_ifs <;> first | rfl | omega | (subst_vars; rfl)

theorem filled_getD {α : Type} {n k : Nat} (z w : α) (g : Nat → α) (h : k < n) : (filled n z g n).getD k w = g k := by
  simp [filled, List.getD, h]

theorem rd_getD {α : Type} {v : List α} {i : Nat} (z : α) (h : i < v.length) : rd v i = .ok (v.getD i z) := by
  simp [rd, h]

theorem rd_ub {α : Type} {v : List α} {i : Nat} (h : v.length ≤ i) : rd v i = .ub := by
  simp [rd, h]

/-- A loop that reaches a step with undefined behaviour. -/
theorem forRange_ub {σ : Type} {n m : Nat} {body : Nat → σ → Res σ} (P : Nat → σ) (hm : m < n)
    (hb : ∀ k, k < m → body k (P k) = .ok (P (k + 1))) (h : body m (P m) = .ub) : forRange 0 n (P 0) body = .ub := by
  have key : ∀ j, j ≤ m → forRange 0 n (P 0) body = forRange j n (P j) body := by
    intro j
    induction j with
    | zero => intro _; rfl
    | succ j ih =>
      intro hj
      rw [ih (by omega), forRange_succ (by omega), hb j (by omega)]
      rfl
  rw [key m le_rfl, forRange_succ hm, h]
  rfl

theorem make_nums {n : Nat} {k : Kind} {b : Block} {s : String} (hs : b.sides? = some s) {v : List ℝ} (h : n ≤ v.length) :
    Condition.make n k b (.nums v) = .ok ⟨k, s, filled n 0 (fun i => v.getD i 0) n, none⟩ := by
  unfold Condition.make need
  rw [hs]
  dsimp only
  rw [Res.ok_bind, ← filled_zero n 0 fun i => v.getD i 0, forRange_eq (filled n 0 fun i => v.getD i 0)]
  · rfl
  · intro i hi
    rw [rd_getD 0 (by omega), Res.ok_bind, wr_filled (g := fun i => v.getD i 0) _ hi]

theorem make_nums_ub {n : Nat} {k : Kind} {b : Block} {s : String} (hs : b.sides? = some s) {v : List ℝ} (h : v.length < n) :
    Condition.make n k b (.nums v) = .ub := by
  unfold Condition.make need
  rw [hs]
  dsimp only
  rw [Res.ok_bind, ← filled_zero n 0 fun i => v.getD i 0, forRange_ub (filled n 0 fun i => v.getD i 0) h]
  · rfl
  · intro i hi
    rw [rd_getD 0 hi, Res.ok_bind, wr_filled (g := fun i => v.getD i 0) _ (by omega)]
  · rw [rd_ub le_rfl]
    rfl

/-- State of the loop over expressions. -/
noncomputable def exprState (n : Nat) (v : List (ℝ → ℝ)) (i : Nat) : List ℝ × List (ℝ → ℝ) :=
  (filled n 0 (fun i => (v.getD i fun _ => 0) 0) i, filled n (fun _ => 0) (fun i => v.getD i fun _ => 0) i)

theorem exprState_zero (n : Nat) (v : List (ℝ → ℝ)) :
    (List.replicate n (0 : ℝ), List.replicate n fun (_ : ℝ) => (0 : ℝ)) = exprState n v 0 := by
  unfold exprState
  rw [filled_zero, filled_zero]

theorem make_exprs {n : Nat} {k : Kind} {b : Block} {s : String} (hs : b.sides? = some s) {v : List (ℝ → ℝ)}
    (h : n ≤ v.length) : Condition.make n k b (.exprs v) = .ok ⟨k, s, (exprState n v n).1, some (exprState n v n).2⟩ := by
  unfold Condition.make need
  rw [hs]
  dsimp only
  rw [Res.ok_bind, exprState_zero n v, forRange_eq (exprState n v)]
  · rfl
  · intro i hi
    rw [rd_getD (fun _ => 0) (by omega), Res.ok_bind]
    unfold exprState
    dsimp only
    rw [wr_filled (g := fun i => v.getD i fun _ => 0) _ hi, Res.ok_bind,
      wr_filled (g := fun i => (v.getD i fun _ => 0) 0) _ hi]
    rfl

theorem make_exprs_ub {n : Nat} {k : Kind} {b : Block} {s : String} (hs : b.sides? = some s) {v : List (ℝ → ℝ)}
    (h : v.length < n) : Condition.make n k b (.exprs v) = .ub := by
  unfold Condition.make need
  rw [hs]
  dsimp only
  rw [Res.ok_bind, exprState_zero n v, forRange_ub (exprState n v) h]
  · rfl
  · intro i hi
    rw [rd_getD (fun _ => 0) hi, Res.ok_bind]
    unfold exprState
    dsimp only
    rw [wr_filled (g := fun i => v.getD i fun _ => 0) _ (by omega), Res.ok_bind,
      wr_filled (g := fun i => (v.getD i fun _ => 0) 0) _ (by omega)]
    rfl
  · rw [rd_ub le_rfl]
    rfl

theorem make_sides {n : Nat} {k : Kind} {b : Block} (hs : b.sides? = none) (v : Vector) : ∃ m, Condition.make n k b v = .err m := by
  unfold Condition.make need
  rw [hs]
  exact ⟨_, rfl⟩

/-- The condition applies the traction `q` of `n` components on the set `s`. -/
def Applies (n : Nat) (c : Condition) (s : String) (q : ℝ → Nat → ℝ) : Prop :=
  ∀ sets t, ∃ f, c.at sets t = .load (sets s) f ∧ ∀ k, k < n → f k = q t k

/-- The condition applies the pressure `p` on the set `s`. -/
def AppliesPressure (n : Nat) (c : Condition) (s : String) (p : ℝ) : Prop :=
  ∀ sets t, ∃ f, c.at sets t = .pressure (sets s) f ∧ ∀ k, k < n → f k = p

theorem applies_nums {n : Nat} {k : Kind} (hk : k ≠ .pressure) {s : String} {v f : List ℝ} {q : ℝ → Nat → ℝ}
    (hf : f = filled n 0 (fun i => v.getD i 0) n) (hq : ∀ t i, i < n → q t i = v.getD i 0) : Applies n ⟨k, s, f, none⟩ s q := by
  intro sets t
  cases k with
  | pressure => exact absurd rfl hk
  | _ => exact ⟨_, rfl, fun i hi => by subst hf; dsimp only; rw [filled_getD _ _ _ hi, hq t i hi]⟩

theorem applies_exprs {n : Nat} {k : Kind} (hk : k ≠ .pressure) {s : String} {v : List (ℝ → ℝ)} {q : ℝ → Nat → ℝ}
    (hq : ∀ t i, i < n → q t i = (v.getD i fun _ => 0) t) :
    Applies n ⟨k, s, (exprState n v n).1, some (exprState n v n).2⟩ s q := by
  intro sets t
  cases k with
  | pressure => exact absurd rfl hk
  | _ => exact ⟨_, rfl, fun i hi => by unfold exprState; dsimp only; rw [filled_getD _ _ _ hi, hq t i hi]⟩

theorem componentOf_eq {dofs i : Nat} {c : String} (hi : (c, i) ∈ componentNames) (h : i = 0 ∨ i < dofs) :
    componentOf dofs c = some i := by
  simp only [componentNames, List.mem_cons, Prod.mk.injEq, List.not_mem_nil, or_false] at hi
  rcases hi with ⟨rfl, rfl⟩ | ⟨rfl, rfl⟩ | ⟨rfl, rfl⟩ | ⟨rfl, rfl⟩ | ⟨rfl, rfl⟩ | ⟨rfl, rfl⟩ <;>
    simp [componentOf] <;> omega

theorem componentOf_mem {dofs i : Nat} {c : String} (h : componentOf dofs c = some i) :
    (c, i) ∈ componentNames ∧ (i = 0 ∨ i < dofs) := by
  unfold componentOf at h
  simp only [componentNames, List.mem_cons, Prod.mk.injEq, List.not_mem_nil, or_false]
  split_ifs at h with h1 h2 h3 <;> simp only [Option.some.injEq, reduceCtorEq] at h <;> subst h
  · rcases h1 with rfl | rfl <;> simp
  · rcases h2 with ⟨rfl | rfl, h⟩ <;> simp [h]
  · rcases h3 with ⟨rfl | rfl, h⟩ <;> simp [h]

theorem replicate_set_getD {α : Type} {n i k : Nat} (z w a : α) (hi : i < n) (hk : k < n) :
    ((List.replicate n z).set i a).getD k w = if k = i then a else z := by
  have hl : k < ((List.replicate n z).set i a).length := by simpa using hk
  rw [List.getD, List.getElem?_eq_getElem hl, Option.getD_some, List.getElem_set]
  split_ifs <;> first | rfl | omega | simp

theorem wr_replicate {α : Type} {n i : Nat} (z a : α) (hi : i < n) :
    wr (List.replicate n z) i a = .ok ((List.replicate n z).set i a) := by simp [wr, hi]

theorem wrInt_replicate {α : Type} {n i : Nat} {j : Int} (z a : α) (hj : j = i) (hi : i < n) :
    wrInt (List.replicate n z) j a = .ok ((List.replicate n z).set i a) := by
  subst hj
  simp [wrInt, wr, hi]

theorem wrInt_ub {α : Type} {n : Nat} {j : Int} (z a : α) (h : ¬ (0 ≤ j ∧ j < n)) : wrInt (List.replicate n z) j a = .ub := by
  unfold wrInt wr
  split_ifs with h1 h2
  · rfl
  · simp at h2; omega
  · rfl

/-- A block that asks for a traction is accepted, and the condition applies the traction. -/
theorem C80_traction {Y : Layout} {b : Block} {s : String} {q : ℝ → Nat → ℝ} (hs : b.sides? = some s)
    (hY : Y.numDofs ≤ Y.dofsPerNode) (h : Asks Y.numDofs b q) : ∃ c, appendBC Y b = .ok c ∧ Applies Y.numDofs c s q := by
  unfold appendBC need
  cases h with
  | @values v t h h0 l =>
    rw [t]
    refine ⟨⟨.uniform, s, filled Y.numDofs 0 (fun i => v.getD i 0) Y.numDofs, none⟩, ?_,
      applies_nums (by decide) rfl fun _ _ _ => rfl⟩
    simp only [Res.ok_bind, kindOf, if_true, setUniform, h, h0]
    exact make_nums hs (by omega)
  | @functions v t h h0 l =>
    rw [t]
    refine ⟨_, ?_, applies_exprs (k := .uniform) (by decide) fun _ _ _ => rfl⟩
    simp only [Res.ok_bind, kindOf, if_true, setUniform, h, h0]
    exact make_exprs hs (by omega)
  | @value a i t h h0 hi l =>
    rw [t]
    refine ⟨⟨.uniform, s, filled Y.numDofs 0 (fun k => ((List.replicate Y.numDofs 0).set i a).getD k 0) Y.numDofs, none⟩, ?_,
      applies_nums (by decide) rfl fun _ k hk => (replicate_set_getD 0 0 a l hk).symm⟩
    simp only [Res.ok_bind, kindOf, if_true, setUniform, h, h0, wrInt_replicate _ _ hi l, Res.pure_eq]
    exact make_nums hs (by simp)
  | @function f i t h h0 hi l =>
    rw [t]
    refine ⟨_, ?_, applies_exprs (k := .uniform) (v := (List.replicate Y.numDofs fun _ => 0).set i f) (by decide)
      fun t k hk => ?_⟩
    · simp only [Res.ok_bind, kindOf, if_true, setUniform, h, h0, wrInt_replicate _ _ hi l, Res.pure_eq]
      exact make_exprs hs (by simp)
    · rw [replicate_set_getD _ _ _ l hk]
      split_ifs <;> rfl
  | @component a c i t h hc hi l =>
    rw [t]
    refine ⟨⟨.component, s, filled Y.numDofs 0 (fun k => ((List.replicate Y.numDofs 0).set i a).getD k 0) Y.numDofs, none⟩, ?_,
      applies_nums (by decide) rfl fun _ k hk => (replicate_set_getD 0 0 a l hk).symm⟩
    simp only [Res.ok_bind, kindOf, setComponent, getNum, h, hc, componentOf_eq hi (Or.inr (lt_of_lt_of_le l hY)),
      wr_replicate _ _ l, Res.pure_eq, String.reduceEq, if_true, if_false]
    exact make_nums hs (by simp)

/-- A block that asks for a pressure is accepted, and the condition applies the pressure. -/
theorem C80_pressure {Y : Layout} {b : Block} {s : String} {p : ℝ} (hs : b.sides? = some s) (h : AsksPressure b p) :
    ∃ c, appendBC Y b = .ok c ∧ AppliesPressure Y.numDofs c s p := by
  refine ⟨⟨.pressure, s, filled Y.numDofs 0 (fun k => (List.replicate Y.numDofs p).getD k 0) Y.numDofs, none⟩, ?_, ?_⟩
  · unfold appendBC need
    rw [h.t]
    simp only [Res.ok_bind, kindOf, setPressure, getNum, h.v, Res.pure_eq, String.reduceEq, if_true, if_false]
    exact make_nums hs (by simp)
  · intro sets t
    refine ⟨_, rfl, fun k hk => ?_⟩
    dsimp only
    rw [filled_getD _ _ _ hk]
    simp [List.getD, hk]

theorem bind_ok {α β : Type} {r : Res α} {f : α → Res β} {c : β} (h : (r >>= f) = .ok c) : ∃ a, r = .ok a ∧ f a = .ok c := by
  cases r with
  | ok a => exact ⟨a, rfl, h⟩
  | err m => cases h
  | ub => cases h

theorem bind_ub {α β : Type} {r : Res α} {f : α → Res β} (h : (r >>= f) = .ub) : r = .ub ∨ ∃ a, r = .ok a ∧ f a = .ub := by
  cases r with
  | ok a => exact Or.inr ⟨a, rfl, h⟩
  | err m => cases h
  | ub => exact Or.inl rfl

theorem wrInt_ok {α : Type} {n : Nat} {j : Int} {z a : α} {v : List α} (h : wrInt (List.replicate n z) j a = .ok v) :
    ∃ i : Nat, j = i ∧ i < n ∧ v = (List.replicate n z).set i a := by
  by_cases hj : 0 ≤ j ∧ j < n
  · refine ⟨j.toNat, by omega, by omega, ?_⟩
    rw [wrInt_replicate z a (i := j.toNat) (by omega) (by omega)] at h
    exact (Res.ok.inj h).symm
  · rw [wrInt_ub z a hj] at h
    cases h

theorem wr_ok {α : Type} {n i : Nat} {z a : α} {v : List α} (h : wr (List.replicate n z) i a = .ok v) : i < n := by
  by_contra hi
  simp [wr, hi] at h

theorem wr_replicate_ub {α : Type} {n i : Nat} {z a : α} (h : wr (List.replicate n z) i a = .ub) : n ≤ i := by
  by_contra hi
  simp [wr, show i < n by omega] at h

theorem kindOf_ok {t : String} {k : Kind} (h : kindOf t = .ok k) :
    (k = .uniform ∧ t = "Uniform") ∨ (k = .pressure ∧ t = "Uniform Pressure") ∨ (k = .component ∧ t = "Uniform Component") := by
  unfold kindOf at h
  split_ifs at h with h1 h2 h3
  · exact Or.inl ⟨(Res.ok.inj h).symm, h1⟩
  · exact Or.inr (Or.inl ⟨(Res.ok.inj h).symm, h2⟩)
  · exact Or.inr (Or.inr ⟨(Res.ok.inj h).symm, h3⟩)
  · cases h

theorem kindOf_ub {t : String} : kindOf t ≠ .ub := by
  unfold kindOf
  split_ifs <;> simp [throwErr]

theorem need_ok {α : Type} {o : Option α} {a : α} (h : need o = .ok a) : o = some a := by
  cases o with
  | none => cases h
  | some x => rw [Res.ok.inj h]

theorem need_ub {α : Type} {o : Option α} : need o ≠ .ub := by
  cases o <;> simp [need, throwErr]

theorem getNum_ok {o : Option ValueEntry} {a : ℝ} (h : getNum o = .ok a) : o = some (.num a) := by
  rcases o with _ | x
  · cases h
  · cases x with
    | num x => rw [Res.ok.inj h]
    | expr f => cases h
    | other => cases h

theorem getNum_ub {o : Option ValueEntry} : getNum o ≠ .ub := by
  rcases o with _ | x
  · simp [getNum, throwErr]
  · cases x <;> simp [getNum, throwErr]

theorem make_ok {n : Nat} {k : Kind} {b : Block} {v : Vector} {c : Condition} (h : Condition.make n k b v = .ok c) :
    ∃ s, b.sides? = some s := by
  cases hs : b.sides? with
  | some s => exact ⟨s, rfl⟩
  | none => obtain ⟨m, e⟩ := make_sides (n := n) (k := k) hs v; rw [e] at h; cases h

/-- A block that is accepted asks for a traction or a pressure, and the condition applies it, unless an entry of
the block was dropped. -/
theorem C80_sound {Y : Layout} {b : Block} {c : Condition} (h : appendBC Y b = .ok c) :
    ∃ s, b.sides? = some s ∧ ((∃ q, Asks Y.numDofs b q ∧ Applies Y.numDofs c s q) ∨
      (∃ p, AsksPressure b p ∧ AppliesPressure Y.numDofs c s p) ∨ Dropped Y.numDofs b) := by
  have h' := h
  unfold appendBC at h
  obtain ⟨t, ht, h⟩ := bind_ok h
  obtain ⟨k, hk, h⟩ := bind_ok h
  obtain ⟨v, hv, h⟩ := bind_ok h
  obtain ⟨s, hs⟩ := make_ok h
  refine ⟨s, hs, ?_⟩
  have ht := need_ok ht
  rcases kindOf_ok hk with ⟨rfl, rfl⟩ | ⟨rfl, rfl⟩ | ⟨rfl, rfl⟩
  · dsimp only at hv
    cases hvs : b.values? with
    | none =>
      cases hvl : b.value? with
      | none => rw [setUniform, hvs, hvl] at hv; cases hv
      | some x =>
        cases x with
        | other => exact Or.inr (Or.inr (.value hvl))
        | num a =>
          rw [setUniform, hvs, hvl] at hv
          obtain ⟨w, hw, hv⟩ := bind_ok hv
          obtain ⟨i, hi, l, rfl⟩ := wrInt_ok hw
          obtain rfl := Res.ok.inj hv
          rw [make_nums hs (by simp)] at h
          obtain rfl := Res.ok.inj h
          exact Or.inl ⟨_, .value ht hvl hvs hi l,
            applies_nums (by decide) rfl fun _ k hk => (replicate_set_getD 0 0 a l hk).symm⟩
        | expr f =>
          rw [setUniform, hvs, hvl] at hv
          obtain ⟨w, hw, hv⟩ := bind_ok hv
          obtain ⟨i, hi, l, rfl⟩ := wrInt_ok hw
          obtain rfl := Res.ok.inj hv
          rw [make_exprs hs (by simp)] at h
          obtain rfl := Res.ok.inj h
          refine Or.inl ⟨_, .function ht hvl hvs hi l, applies_exprs (by decide) fun t k hk => ?_⟩
          rw [replicate_set_getD _ _ _ l hk]
          split_ifs <;> rfl
    | some y =>
      cases y with
      | other => exact Or.inr (Or.inr (.values hvs))
      | nums w =>
        cases hvl : b.value? with
        | some x =>
          cases x with
          | other => exact Or.inr (Or.inr (.value hvl))
          | _ => rw [setUniform, hvs, hvl] at hv; cases hv
        | none =>
          rw [setUniform, hvs, hvl] at hv
          obtain rfl := Res.ok.inj hv
          rcases Nat.lt_trichotomy w.length Y.numDofs with l | l | l
          · rw [make_nums_ub hs l] at h; cases h
          · rw [make_nums hs (by omega)] at h
            obtain rfl := Res.ok.inj h
            exact Or.inl ⟨_, .values ht hvs hvl l, applies_nums (by decide) rfl fun _ _ _ => rfl⟩
          · exact Or.inr (Or.inr (.nums hvs l))
      | exprs w =>
        cases hvl : b.value? with
        | some x =>
          cases x with
          | other => exact Or.inr (Or.inr (.value hvl))
          | _ => rw [setUniform, hvs, hvl] at hv; cases hv
        | none =>
          rw [setUniform, hvs, hvl] at hv
          obtain rfl := Res.ok.inj hv
          rcases Nat.lt_trichotomy w.length Y.numDofs with l | l | l
          · rw [make_exprs_ub hs l] at h; cases h
          · rw [make_exprs hs (by omega)] at h
            obtain rfl := Res.ok.inj h
            exact Or.inl ⟨_, .functions ht hvs hvl l, applies_exprs (by decide) fun _ _ _ => rfl⟩
          · exact Or.inr (Or.inr (.exprs hvs l))
  · obtain ⟨p, hp, -⟩ := bind_ok hv
    have hp : AsksPressure b p := ⟨ht, getNum_ok hp⟩
    obtain ⟨c', e, hc⟩ := C80_pressure (Y := Y) hs hp
    rw [h'] at e
    obtain rfl := Res.ok.inj e
    exact Or.inr (Or.inl ⟨p, hp, hc⟩)
  · obtain ⟨a, ha, hv⟩ := bind_ok hv
    have ha := getNum_ok ha
    cases hc : b.component? with
    | none => rw [hc] at hv; cases hv
    | some nm =>
      rw [hc] at hv
      obtain ⟨nm', e, hv⟩ := bind_ok hv
      obtain rfl := Res.ok.inj e
      cases hi : componentOf Y.dofsPerNode nm with
      | none => rw [hi] at hv; cases hv
      | some i =>
        rw [hi] at hv
        obtain ⟨w, hw, hv⟩ := bind_ok hv
        have l := wr_ok hw
        rw [wr_replicate _ _ l] at hw
        obtain rfl := Res.ok.inj hw
        obtain rfl := Res.ok.inj hv
        rw [make_nums hs (by simp)] at h
        obtain rfl := Res.ok.inj h
        exact Or.inl ⟨_, .component ht ha hc (componentOf_mem hi).1 l,
          applies_nums (by decide) rfl fun _ k hk => (replicate_set_getD 0 0 a l hk).symm⟩

/-- Reading a block is undefined exactly if the block asks for an entry that is not there. -/
theorem C80_undefined (Y : Layout) (b : Block) : appendBC Y b = .ub ↔ Outside Y b := by
  constructor
  · intro h
    unfold appendBC at h
    obtain ⟨t, ht, k, hk, h⟩ : ∃ t, need b.type? = .ok t ∧ ∃ k, kindOf t = .ok k ∧ ((match k with
        | .uniform => setUniform Y.numDofs b
        | .pressure => setPressure Y.numDofs b
        | .component => setComponent Y b : Res Vector) >>= fun v => Condition.make Y.numDofs k b v) = .ub := by
      rcases bind_ub h with h1 | ⟨t, ht, h1⟩
      · exact absurd h1 need_ub
      rcases bind_ub h1 with h2 | ⟨k, hk, h2⟩
      · exact absurd h2 kindOf_ub
      exact ⟨t, ht, k, hk, h2⟩
    have ht := need_ok ht
    have sides : ∀ v, Condition.make Y.numDofs k b v = .ub → ∃ s, b.sides? = some s := by
      intro v e
      cases hs : b.sides? with
      | some s => exact ⟨s, rfl⟩
      | none => obtain ⟨m, e'⟩ := make_sides (n := Y.numDofs) (k := k) hs v; rw [e'] at e; cases e
    have full : ∀ w : List ℝ, w.length = Y.numDofs → Condition.make Y.numDofs k b (.nums w) ≠ .ub := by
      intro w l e
      obtain ⟨s, hs⟩ := sides _ e
      rw [make_nums hs (by omega)] at e
      cases e
    have fullE : ∀ w : List (ℝ → ℝ), w.length = Y.numDofs → Condition.make Y.numDofs k b (.exprs w) ≠ .ub := by
      intro w l e
      obtain ⟨s, hs⟩ := sides _ e
      rw [make_exprs hs (by omega)] at e
      cases e
    have numsU : ∀ w : List ℝ, Condition.make Y.numDofs k b (.nums w) = .ub →
        ∃ s, b.sides? = some s ∧ w.length < Y.numDofs := by
      intro w e
      obtain ⟨s, hs⟩ := sides _ e
      refine ⟨s, hs, ?_⟩
      by_contra l
      rw [make_nums hs (by omega)] at e
      cases e
    have exprsU : ∀ w : List (ℝ → ℝ), Condition.make Y.numDofs k b (.exprs w) = .ub →
        ∃ s, b.sides? = some s ∧ w.length < Y.numDofs := by
      intro w e
      obtain ⟨s, hs⟩ := sides _ e
      refine ⟨s, hs, ?_⟩
      by_contra l
      rw [make_exprs hs (by omega)] at e
      cases e
    have single : ∀ {x : ValueEntry}, b.type? = some "Uniform" → b.value? = some x →
        (b.values? = none ∨ b.values? = some .other) →
        (setUniform Y.numDofs b >>= fun v => Condition.make Y.numDofs k b v) = .ub → Outside Y b := by
      intro x ht hx hvs e
      have hx' : x ≠ .other := by
        rintro rfl
        rw [setUniform, hx] at e
        rcases hvs with hvs | hvs <;> rw [hvs] at e <;> cases e
      refine .index ht hx hx' hvs fun hi => ?_
      obtain ⟨i, hi', l⟩ : ∃ i : Nat, b.index?.getD 0 = i ∧ i < Y.numDofs := ⟨(b.index?.getD 0).toNat, by omega, by omega⟩
      cases x with
      | other => exact hx' rfl
      | num a =>
        have e' : setUniform Y.numDofs b = .ok (.nums ((List.replicate Y.numDofs 0).set i a)) := by
          rcases hvs with hvs | hvs <;> simp [setUniform, hx, hvs, wrInt_replicate _ _ hi' l]
        rw [e', Res.ok_bind] at e
        exact full _ (by simp) e
      | expr f =>
        have e' : setUniform Y.numDofs b = .ok (.exprs ((List.replicate Y.numDofs fun _ => 0).set i f)) := by
          rcases hvs with hvs | hvs <;> simp [setUniform, hx, hvs, wrInt_replicate _ _ hi' l]
        rw [e', Res.ok_bind] at e
        exact fullE _ (by simp) e
    rcases kindOf_ok hk with ⟨rfl, rfl⟩ | ⟨rfl, rfl⟩ | ⟨rfl, rfl⟩
    · dsimp only at h
      cases hvs : b.values? with
      | none =>
        cases hvl : b.value? with
        | none => rw [setUniform, hvs, hvl] at h; cases h
        | some x => exact single ht hvl (Or.inl hvs) h
      | some y =>
        cases y with
        | other =>
          cases hvl : b.value? with
          | none => rw [setUniform, hvs, hvl] at h; cases h
          | some x => exact single ht hvl (Or.inr hvs) h
        | nums w =>
          have hx : b.value? = none ∨ b.value? = some .other := by
            cases hvl : b.value? with
            | none => exact Or.inl rfl
            | some x =>
              cases x with
              | other => exact Or.inr rfl
              | _ => rw [setUniform, hvs, hvl] at h; cases h
          have e' : setUniform Y.numDofs b = .ok (.nums w) := by
            rcases hx with hx | hx <;> rw [setUniform, hvs, hx]
          rw [e', Res.ok_bind] at h
          obtain ⟨s, hs, l⟩ := numsU _ h
          exact .nums ht hvs hx hs l
        | exprs w =>
          have hx : b.value? = none ∨ b.value? = some .other := by
            cases hvl : b.value? with
            | none => exact Or.inl rfl
            | some x =>
              cases x with
              | other => exact Or.inr rfl
              | _ => rw [setUniform, hvs, hvl] at h; cases h
          have e' : setUniform Y.numDofs b = .ok (.exprs w) := by
            rcases hx with hx | hx <;> rw [setUniform, hvs, hx]
          rw [e', Res.ok_bind] at h
          obtain ⟨s, hs, l⟩ := exprsU _ h
          exact .exprs ht hvs hx hs l
    · rcases bind_ub h with h | ⟨v, hv, h⟩
      · rcases bind_ub h with h | ⟨a, -, h⟩
        · exact absurd h getNum_ub
        · cases h
      · obtain ⟨a, -, hv⟩ := bind_ok hv
        obtain rfl := Res.ok.inj hv
        exact absurd h (full _ (by simp))
    · rcases bind_ub h with h | ⟨v, hv, h⟩
      · rcases bind_ub h with h | ⟨a, ha, h⟩
        · exact absurd h getNum_ub
        have ha := getNum_ok ha
        cases hc : b.component? with
        | none => rw [hc] at h; cases h
        | some nm =>
          rw [hc] at h
          change (match componentOf Y.dofsPerNode nm with
            | some i => (do let v ← wr (List.replicate Y.numDofs 0) i a; pure (.nums v) : Res Vector)
            | none => throwErr "Natural Boundary Condition: 'Component' Parameter Keyword is NOT supported.") = .ub at h
          cases hi : componentOf Y.dofsPerNode nm with
          | none => rw [hi] at h; cases h
          | some i =>
            rw [hi] at h
            rcases bind_ub h with h | ⟨w, -, h⟩
            · exact .component ht ha hc (componentOf_mem hi).1 (wr_replicate_ub h) (componentOf_mem hi).2
            · cases h
      · obtain ⟨a, ha, hv⟩ := bind_ok hv
        cases hc : b.component? with
        | none => rw [hc] at hv; cases hv
        | some nm =>
          rw [hc] at hv
          obtain ⟨nm', e, hv⟩ := bind_ok hv
          obtain rfl := Res.ok.inj e
          cases hi : componentOf Y.dofsPerNode nm with
          | none => rw [hi] at hv; cases hv
          | some i =>
            rw [hi] at hv
            obtain ⟨w, hw, hv⟩ := bind_ok hv
            rw [wr_replicate _ _ (wr_ok hw)] at hw
            obtain rfl := Res.ok.inj hw
            obtain rfl := Res.ok.inj hv
            exact absurd h (full _ (by simp))
  · intro h
    unfold appendBC need
    cases h with
    | @nums v s t h h0 hs l =>
      rw [t]
      rcases h0 with h0 | h0 <;> simp only [Res.ok_bind, kindOf, if_true, setUniform, h, h0] <;> exact make_nums_ub hs l
    | @exprs v s t h h0 hs l =>
      rw [t]
      rcases h0 with h0 | h0 <;> simp only [Res.ok_bind, kindOf, if_true, setUniform, h, h0] <;> exact make_exprs_ub hs l
    | @index x t h hx h0 l =>
      rw [t]
      cases x with
      | other => exact absurd rfl hx
      | num a => rcases h0 with h0 | h0 <;> simp only [Res.ok_bind, kindOf, if_true, setUniform, h, h0, wrInt_ub _ _ l] <;> rfl
      | expr f => rcases h0 with h0 | h0 <;> simp only [Res.ok_bind, kindOf, if_true, setUniform, h, h0, wrInt_ub _ _ l] <;> rfl
    | @component a c i t h hc hi l h0 =>
      rw [t]
      have e : wr (List.replicate Y.numDofs (0 : ℝ)) i a = .ub := by simp [wr]; omega
      simp only [Res.ok_bind, kindOf, setComponent, getNum, h, hc, componentOf_eq hi h0, e, String.reduceEq, if_true, if_false]
      rfl

/-- The conditions that a list of blocks asks for. -/
inductive AskedBy (n : Nat) (c : Condition) (b : Block) : Prop
  | traction {s : String} {q : ℝ → Nat → ℝ} (hs : b.sides? = some s) (h : Asks n b q) (ha : Applies n c s q)
  | pressure {s : String} {p : ℝ} (hs : b.sides? = some s) (h : AsksPressure b p) (ha : AppliesPressure n c s p)

theorem makeBCs_from {Y : Layout} (hY : Y.numDofs ≤ Y.dofsPerNode) : ∀ (l : List Block) (done : List Condition),
    (∀ b ∈ l, (∃ s, b.sides? = some s) ∧ ((∃ q, Asks Y.numDofs b q) ∨ ∃ p, AsksPressure b p)) →
    ∃ cs, (l.map Item.block).foldlM (fun done i =>
      match i with
      | .param => throwErr "Natural Boundary Condition: Parameter in Boundary Conditions block not valid.  Expect lists only."
      | .block b =>
        if b.type?.isNone then throwErr "Natural Boundary Condition: 'Type' Parameter Keyword is NOT defined."
        else do
          let c ← appendBC Y b
          pure (done ++ [c])) done = Res.ok (done ++ cs) ∧ List.Forall₂ (AskedBy Y.numDofs) cs l := by
  intro l
  induction l with
  | nil => intro done _; exact ⟨[], by simp, .nil⟩
  | cons b l ih =>
    intro done h
    obtain ⟨⟨s, hs⟩, hb⟩ := h b List.mem_cons_self
    have ht : b.type?.isNone = false := by
      rcases hb with ⟨q, hq⟩ | ⟨p, hp⟩
      · cases hq with
        | values t => rw [t]; rfl
        | functions t => rw [t]; rfl
        | value t => rw [t]; rfl
        | function t => rw [t]; rfl
        | component t => rw [t]; rfl
      · rw [hp.t]; rfl
    obtain ⟨c, hc, ha⟩ : ∃ c, appendBC Y b = .ok c ∧ AskedBy Y.numDofs c b := by
      rcases hb with ⟨q, hq⟩ | ⟨p, hp⟩
      · obtain ⟨c, hc, ha⟩ := C80_traction hs hY hq
        exact ⟨c, hc, .traction hs hq ha⟩
      · obtain ⟨c, hc, ha⟩ := C80_pressure (Y := Y) hs hp
        exact ⟨c, hc, .pressure hs hp ha⟩
    obtain ⟨cs, hcs, hf⟩ := ih (done ++ [c]) fun b' hb' => h b' (List.mem_cons_of_mem _ hb')
    refine ⟨c :: cs, ?_, .cons ha hf⟩
    rw [List.map_cons, List.foldlM_cons]
    dsimp only
    rw [ht, hc]
    rw [if_neg Bool.false_ne_true, Res.ok_bind, Res.pure_eq, Res.ok_bind]
    rw [hcs, List.append_assoc]
    rfl

/-- A list of blocks that ask for tractions and pressures gives their conditions, in the same order. -/
theorem C80_list {Y : Layout} (hY : Y.numDofs ≤ Y.dofsPerNode) (l : List Block)
    (h : ∀ b ∈ l, (∃ s, b.sides? = some s) ∧ ((∃ q, Asks Y.numDofs b q) ∨ ∃ p, AsksPressure b p)) :
    ∃ cs, makeBCs Y (l.map Item.block) = .ok cs ∧ List.Forall₂ (AskedBy Y.numDofs) cs l := by
  obtain ⟨cs, e, hf⟩ := makeBCs_from hY l [] h
  exact ⟨cs, e, hf⟩

/-- A step of a hyperbolic problem applies the traction of its time. -/
theorem C80_time {Y : Layout} {b : Block} {s : String} {q : ℝ → Nat → ℝ} (hs : b.sides? = some s)
    (hY : Y.numDofs ≤ Y.dofsPerNode) (h : Asks Y.numDofs b q) : ∃ c, appendBC Y b = .ok c ∧ ∀ sets t,
      ∃ f, c.at sets (Caller.hyperbolic.time t) = .load (sets s) f ∧ ∀ k, k < Y.numDofs → f k = q t k := by
  obtain ⟨c, hc, ha⟩ := C80_traction hs hY h
  exact ⟨c, hc, fun sets t => ha sets t⟩

/-- A step of any other problem applies the traction of time zero: whatever a function of time is after its start,
it is not looked at. -/
theorem C80_time_false {Y : Layout} (hn : 0 < Y.numDofs) (f g : ℝ → ℝ) (h0 : f 0 = g 0) (s : String) :
    ∃ c c', appendBC Y { type? := some "Uniform", sides? := some s, value? := some (.expr f) } = .ok c ∧
      appendBC Y { type? := some "Uniform", sides? := some s, value? := some (.expr g) } = .ok c' ∧
      ∀ sets t, ∃ p p', c.at sets (Caller.other.time t) = .load (sets s) p ∧
        c'.at sets (Caller.other.time t) = .load (sets s) p' ∧ ∀ k, k < Y.numDofs → p k = p' k := by
  have key : ∀ f : ℝ → ℝ, ∃ c, appendBC Y { type? := some "Uniform", sides? := some s, value? := some (.expr f) } = .ok c ∧
      Applies Y.numDofs c s fun t k => if k = 0 then f t else 0 := by
    intro f
    refine ⟨_, ?_, applies_exprs (k := .uniform) (v := (List.replicate Y.numDofs fun _ => 0).set 0 f) (by decide)
      fun t k hk => ?_⟩
    · unfold appendBC
      have e : setUniform Y.numDofs { type? := some "Uniform", sides? := some s, value? := some (.expr f) } =
          .ok (.exprs ((List.replicate Y.numDofs fun _ => 0).set 0 f)) := by
        have e := wrInt_replicate (n := Y.numDofs) (i := 0) (j := (none : Option Int).getD 0) (fun _ => (0 : ℝ)) f rfl hn
        unfold setUniform
        dsimp only
        rw [e]
        rfl
      simp only [need, Res.ok_bind, kindOf, if_true, e]
      exact make_exprs rfl (by simp)
    · rw [replicate_set_getD _ _ _ hn hk]
      split_ifs <;> rfl
  obtain ⟨c, hc, ha⟩ := key f
  obtain ⟨c', hc', ha'⟩ := key g
  refine ⟨c, c', hc, hc', fun sets t => ?_⟩
  obtain ⟨p, hp, e⟩ := ha sets (Caller.other.time t)
  obtain ⟨p', hp', e'⟩ := ha' sets (Caller.other.time t)
  refine ⟨p, p', hp, hp', fun k hk => ?_⟩
  rw [e k hk, e' k hk]
  simp only [Caller.time, h0]

/-- A traction with more entries than the problem has components is accepted, and the further ones are dropped. -/
theorem C80_longer_false (Y : Layout) (v w : List ℝ) (hv : v.length = Y.numDofs) (s : String) :
    ∃ c, appendBC Y { type? := some "Uniform", sides? := some s, values? := some (.nums (v ++ w)) } = .ok c ∧
      Applies Y.numDofs c s fun _ k => v.getD k 0 := by
  refine ⟨⟨.uniform, s, filled Y.numDofs 0 (fun k => (v ++ w).getD k 0) Y.numDofs, none⟩, ?_,
    applies_nums (by decide) rfl fun _ k hk => ?_⟩
  · unfold appendBC
    simp only [need, Res.ok_bind, kindOf, if_true, setUniform]
    exact make_nums rfl (by simp [hv])
  · simp only [List.getD]
    rw [List.getElem?_append_left (by omega)]

section Plasticity
open Plato.Plast

variable {R : Type}

/-- The value `a` for the component `nm` on the set `s`. -/
def onComponent (s nm : String) (a : ℝ) : Block :=
  { type? := some "Uniform Component", sides? := some s, value? := some (.num a), component? := some nm }

/-- Plasticity in the plane accepts the component "z", and loads the equation of the pressure. -/
theorem C80_plane_z_false (P : Plast R) (ht : P.mat.thermal = false) (hd : P.mat.d = 2) (a : ℝ) (s : String) :
    ∃ c, appendBC (mechLayout P) (onComponent s "z" a) = .ok c ∧
      ∀ sets t, ∃ f, c.at sets t = .load (sets s) f ∧ f P.mat.d = a := by
  have hl : mechLayout P = ⟨3, 3, 0⟩ := by simp [mechLayout, ht, Plast.ndof, J2.J2.ndof, hd]
  rw [hl]
  obtain ⟨c, hc, ha⟩ := C80_traction (Y := ⟨3, 3, 0⟩) (b := onComponent s "z" a) rfl (le_refl 3)
    (.component (a := a) (c := "z") (i := 2) rfl rfl rfl (by simp [componentNames]) (by decide))
  refine ⟨c, hc, fun sets t => ?_⟩
  obtain ⟨f, e, h⟩ := ha sets t
  exact ⟨f, e, by rw [hd, h 2 (by decide)]; rfl⟩

/-- Plasticity reads a traction with one entry for each direction of space past its end. -/
theorem C80_plasticity_values_false (P : Plast R) (ht : P.mat.thermal = false) (v : List ℝ) (hv : v.length = P.mat.d) (s : String) :
    appendBC (mechLayout P) { type? := some "Uniform", sides? := some s, values? := some (.nums v) } = .ub := by
  rw [C80_undefined]
  refine .nums rfl rfl (Or.inl rfl) rfl ?_
  simp [mechLayout, ht, Plast.ndof, J2.J2.ndof, hv]

/-- Thermoplasticity in the plane writes the component "z" past the end of the traction. -/
theorem C80_thermo_z_false (P : Plast R) (ht : P.mat.thermal = true) (hd : P.mat.d = 2) (a : ℝ) (s : String) :
    appendBC (mechLayout P) (onComponent s "z" a) = .ub := by
  rw [C80_undefined]
  refine .component (i := 2) rfl rfl rfl (by simp [componentNames]) ?_ (Or.inr ?_) <;> simp [mechLayout, ht, Plast.ndof, J2.J2.ndof, hd]

/-- Any component of a heat flux but "x" is written past its end. -/
theorem C80_heat_y_false (P : Plast R) (hd : 0 < P.mat.d) (a : ℝ) (s : String) :
    appendBC (heatLayout P) (onComponent s "y" a) = .ub := by
  rw [C80_undefined]
  refine .component (i := 1) rfl rfl rfl (by simp [componentNames]) (by simp [heatLayout]) (Or.inr ?_)
  simp only [heatLayout, Plast.ndof, J2.J2.ndof]
  split_ifs <;> omega

end Plasticity

/-- A block of an elastic problem in space: component 2 of "front" grows with time. -/
noncomputable def growing : Block := { type? := some "Uniform", sides? := some "front", value? := some (.expr fun t => 3 * t), index? := some 2 }

/-- Two blocks: a traction and a pressure. -/
noncomputable def bothBlocks : List Block :=
  [growing, { type? := some "Uniform Pressure", sides? := some "top", value? := some (.num 5) }]

theorem growing_asks : Asks 3 growing fun t k => if k = 2 then 3 * t else 0 := .function rfl rfl rfl rfl (by decide)

example : ∃ c, appendBC ⟨3, 3, 0⟩ growing = .ok c ∧ ∀ sets, ∃ f, c.at sets 2 = .load (sets "front") f ∧ f 2 = 6 ∧ f 0 = 0 := by
  obtain ⟨c, hc, ha⟩ := C80_traction (Y := ⟨3, 3, 0⟩) (s := "front") rfl (le_refl 3) growing_asks
  refine ⟨c, hc, fun sets => ?_⟩
  obtain ⟨f, e, h⟩ := ha sets 2
  exact ⟨f, e, by rw [h 2 (by decide)]; norm_num, by rw [h 0 (by decide)]; norm_num⟩

example : ∃ cs, makeBCs ⟨3, 3, 0⟩ (bothBlocks.map Item.block) = .ok cs ∧ List.Forall₂ (AskedBy 3) cs bothBlocks := by
  refine C80_list (Y := ⟨3, 3, 0⟩) (le_refl 3) _ fun b hb => ?_
  simp only [bothBlocks, List.mem_cons, List.not_mem_nil, or_false] at hb
  rcases hb with rfl | rfl
  · exact ⟨⟨_, rfl⟩, Or.inl ⟨_, growing_asks⟩⟩
  · exact ⟨⟨_, rfl⟩, Or.inr ⟨5, rfl, rfl⟩⟩

example : ∃ c c', appendBC ⟨3, 3, 0⟩ { type? := some "Uniform", sides? := some "front", value? := some (.expr fun t => 3 * t) } = .ok c ∧
    appendBC ⟨3, 3, 0⟩ { type? := some "Uniform", sides? := some "front", value? := some (.expr fun _ => 0) } = .ok c' ∧
    ∀ sets t, ∃ p p', c.at sets (Caller.other.time t) = .load (sets "front") p ∧
      c'.at sets (Caller.other.time t) = .load (sets "front") p' ∧ ∀ k, k < 3 → p k = p' k :=
  C80_time_false (Y := ⟨3, 3, 0⟩) (by decide) (fun t => 3 * t) (fun _ => 0) (by norm_num) "front"

example : Outside ⟨3, 3, 0⟩ { type? := some "Uniform", sides? := some "front", values? := some (.nums [1, 2]) } :=
  .nums rfl rfl (Or.inl rfl) rfl (by decide)

end Plato.Bnd
