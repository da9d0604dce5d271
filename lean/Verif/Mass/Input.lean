import Verif.Mass.Least
import Mathlib.Data.List.Sort

/-!
# Reading of the input of the mass properties criterion (C70)
-/

namespace Plato.Mass
open Plato Plato.Mech Plato.Crit Finset Matrix

theorem bind_ok_iff {α β : Type} {r : Res α} {f : α → Res β} {b : β} : (r >>= f) = .ok b ↔ ∃ a, r = .ok a ∧ f a = .ok b := by
  cases r with
  | ok a => simp
  | err m => simp
  | ub => simp

/-! ## Whether all properties are listed -/

theorem sortNames_perm (l : List String) : (sortNames l).Perm l := List.perm_insertionSort _ l

theorem sortNames_pairwise (l : List String) : (sortNames l).Pairwise (· ≤ ·) := List.pairwise_insertionSort _ l

theorem nodup_of_destutter {l : List String} (hs : l.Pairwise (· ≤ ·)) : (l.destutter (· ≠ ·)).length = l.length ↔ l.Nodup := by
  constructor
  · intro h
    have he : l.destutter (· ≠ ·) = l := (List.destutter_sublist _ l).eq_of_length h
    have hc : l.IsChain (· ≠ ·) := (List.destutter_eq_self_iff _ l).1 he
    have hlt : l.IsChain (· < ·) := by
      have hb := hs.isChain
      rw [List.isChain_iff_getElem] at hb hc ⊢
      exact fun i hi => lt_of_le_of_ne (hb i hi) (hc i hi)
    exact (List.isChain_iff_pairwise.1 hlt).imp fun h => h.ne
  · intro h
    rw [(List.destutter_eq_self_iff _ l).2 (List.Pairwise.isChain h)]

theorem allSpecified_go {all l : List String} (hall : ∀ n ∈ all, n ∈ allNames) (hl : l.length = all.length) :
    allSpecified.go l all = .ok true ↔ l = all := by
  induction l generalizing all with
  | nil =>
    cases all with
    | nil => simp [allSpecified.go]
    | cons a m => simp at hl
  | cons a l ih =>
    cases all with
    | nil => simp at hl
    | cons b m =>
      unfold allSpecified.go
      by_cases ha : a ∈ allNames
      · rw [if_neg (not_not.2 ha)]
        by_cases hab : a = b
        · rw [if_neg (not_not.2 hab), ih (fun n hn => hall n (List.mem_cons_of_mem _ hn)) (by simpa using hl), hab]
          simp
        · rw [if_pos hab]
          simp [hab]
      · rw [if_pos ha]
        constructor
        · intro h; cases h
        · intro h
          rw [List.cons.injEq] at h
          exact absurd (hall b (List.mem_cons_self ..)) (h.1 ▸ ha)

/-- **C70**: the rotated form is chosen exactly when the names are the ten names, in any order. -/
theorem C70_all_iff (names : List String) : allSpecified names = .ok true ↔ names.Perm allNames := by
  have hs := sortNames_pairwise names
  have hp := sortNames_perm names
  have hlen : (sortNames names).length = names.length := hp.length_eq
  unfold allSpecified
  dsimp only
  by_cases hd : (sortNames names).Nodup
  · have he : (sortNames names).destutter (· ≠ ·) = sortNames names :=
      (List.destutter_eq_self_iff _ _).2 (List.Pairwise.isChain hd)
    rw [he, if_neg (by omega)]
    by_cases h10 : names.length < 10
    · rw [if_pos h10]
      constructor
      · intro h; cases h
      · intro h
        have : names.length = 10 := h.length_eq
        omega
    · rw [if_neg h10]
      by_cases hne : (sortNames names).length ≠ (sortNames allNames).length
      · rw [if_pos hne]
        constructor
        · intro h; cases h
        · intro h
          rw [hlen, (sortNames_perm allNames).length_eq, h.length_eq] at hne
          exact absurd rfl hne
      · rw [if_neg hne, allSpecified_go (fun n hn => (sortNames_perm allNames).mem_iff.1 hn) (not_not.1 hne)]
        constructor
        · intro h
          exact hp.symm.trans (h ▸ sortNames_perm allNames)
        · intro h
          exact ((hp.trans h).trans (sortNames_perm allNames).symm).eq_of_pairwise
            (fun a b _ _ => le_antisymm) hs (sortNames_pairwise allNames)
  · rw [if_pos (by
      intro h
      exact hd ((nodup_of_destutter hs).1 (by omega)))]
    constructor
    · intro h; cases h
    · intro h
      exact absurd (hp.nodup_iff.2 (h.nodup_iff.2 (by decide))) hd

/-- **C70**: names listed twice are rejected. -/
theorem C70_duplicates {names : List String} (h : ¬names.Nodup) : ∃ m, allSpecified names = .err m := by
  have hp := sortNames_perm names
  unfold allSpecified
  dsimp only
  rw [if_pos (by
    intro he
    have := hp.length_eq
    exact h (hp.nodup_iff.1 ((nodup_of_destutter (sortNames_pairwise names)).1 (by omega))))]
  exact ⟨_, rfl⟩

theorem known_of_isSome {B : Body} {n : String} (h : (propertyOf B n).isSome) : n ∈ allNames := by
  unfold propertyOf at h
  split at h <;> first | (simp [allNames]; done) | cases h

theorem known_isSome (B : Body) {n : String} (h : n ∈ allNames) : (propertyOf B n).isSome := by
  simp only [allNames, List.mem_cons, List.not_mem_nil, or_false] at h
  rcases h with rfl | rfl | rfl | rfl | rfl | rfl | rfl | rfl | rfl | rfl <;> rfl

/-- For known names without duplicates the answer is yes or no. -/
theorem allSpecified_ok {names : List String} (hn : names.Nodup) (hk : ∀ n ∈ names, n ∈ allNames) :
    ∃ b, allSpecified names = .ok b := by
  have hs := sortNames_pairwise names
  have hp := sortNames_perm names
  have hlen : (sortNames names).length = names.length := hp.length_eq
  have he : (sortNames names).destutter (· ≠ ·) = sortNames names :=
    (List.destutter_eq_self_iff _ _).2 (List.Pairwise.isChain (hp.nodup_iff.2 hn))
  have go : ∀ l all : List String, (∀ n ∈ l, n ∈ allNames) → ∃ b, allSpecified.go l all = .ok b := by
    intro l
    induction l with
    | nil => intro all _; exact ⟨true, by cases all <;> rfl⟩
    | cons a l ih =>
      intro all hl
      cases all with
      | nil => exact ⟨true, rfl⟩
      | cons b m =>
        unfold allSpecified.go
        rw [if_neg (not_not.2 (hl a (List.mem_cons_self ..)))]
        by_cases hab : a = b
        · rw [if_neg (not_not.2 hab)]
          exact ih m fun n hn => hl n (List.mem_cons_of_mem _ hn)
        · rw [if_pos hab]
          exact ⟨false, rfl⟩
  unfold allSpecified
  dsimp only
  rw [he, if_neg (by omega)]
  split_ifs
  · exact ⟨false, rfl⟩
  · exact ⟨false, rfl⟩
  · exact go _ _ fun n hn => hk n (hp.mem_iff.1 hn)

/-! ## The criterion from its list -/

theorem lookUp_eq {names : List String} {vs : List ℝ} (hn : names.Nodup) (hl : vs.length = names.length) {i : Nat}
    (hi : i < names.length) : lookUp names vs names[i] = at0 vs i := by
  unfold lookUp
  induction names generalizing vs i with
  | nil => simp at hi
  | cons a l ih =>
    cases vs with
    | nil => simp at hl
    | cons v vs =>
      rw [List.nodup_cons] at hn
      cases i with
      | zero => simp [at0]
      | succ i =>
        have hi' : i < l.length := by simpa using hi
        have hne : l[i] ≠ a := fun h => hn.1 (h ▸ List.getElem_mem hi')
        have := ih hn.2 (by simpa using hl) hi'
        simp only [List.zip_cons_cons, List.getElem_cons_succ, List.lookup_cons]
        rw [show (l[i] == a) = false by simpa using hne]
        rw [this]
        simp [at0]

theorem centre_ext {B : Body} {z x : List ℝ} {a b c : ℝ} : centreOf B z x = ![a, b, c] ↔
    centreOf B z x 0 = a ∧ centreOf B z x 1 = b ∧ centreOf B z x 2 = c := by
  constructor
  · intro h
    rw [h]
    exact ⟨rfl, rfl, rfl⟩
  · rintro ⟨h0, h1, h2⟩
    funext i
    fin_cases i
    · exact h0
    · exact h1
    · exact h2

theorem inertia_ext {B : Body} {z x : List ℝ} {g : String → ℝ} : inertiaOf B z x = goldInertia g ↔
    inertiaOf B z x 0 0 = g "Ixx" ∧ inertiaOf B z x 1 1 = g "Iyy" ∧ inertiaOf B z x 2 2 = g "Izz" ∧
    inertiaOf B z x 0 1 = g "Ixy" ∧ inertiaOf B z x 0 2 = g "Ixz" ∧ inertiaOf B z x 1 2 = g "Iyz" := by
  constructor
  · intro h
    rw [h]
    exact ⟨rfl, rfl, rfl, rfl, rfl, rfl⟩
  · rintro ⟨h0, h1, h2, h4, h5, h6⟩
    have s0 := inertia_symm (B := B) z x 1 0
    have s1 := inertia_symm (B := B) z x 2 0
    have s2 := inertia_symm (B := B) z x 2 1
    funext i j
    fin_cases i <;> fin_cases j <;> simp [goldInertia, h0, h1, h2, h4, h5, h6, s0, s1, s2]

section
variable {B : Body} (hB : B.Ok) (h3 : B.M.dim = 3) {o : List Nat → Orders} (ho : ∀ p, (o p).Ok B.M)
include hB h3 ho

/-- **C70**: a list of known names, each once, with as many positive weights and gold values, is accepted; the
value of the criterion is never negative, and it is zero exactly when every listed property has its gold
value; its gradients are the derivatives of the value.  This holds for both forms of the criterion, the
rotated one with an exact eigenvalue decomposition. -/
theorem C70_matches {eig : Tensor → Tensor × (Fin 3 → ℝ)} {l : PropertyList} {names : List String} {ws gold : List ℝ}
    (hl : l = ⟨some names, some ws, some gold⟩) (hw : ws.length = names.length) (hg : gold.length = names.length)
    (hn : names.Nodup) (hk : ∀ n ∈ names, n ∈ allNames) (hpos : ∀ i, i < names.length → 0 < at0 ws i)
    (he : EigOk eig (goldAboutCentre (lookUp names gold))) {ext : ℝ × ℝ × ℝ} {o' : Orders} (ho' : o'.Ok B.M) :
    (createLeast B eig o (.ok ext) l).Sat fun p => ∃ v : List ℝ → List ℝ → ℝ,
      Sound B (fun z x => (∃ n ∈ names, isCentre n) → massOf B z x ≠ 0) (massProperties B p o') v ∧
      ∀ z x, 0 ≤ v z x ∧ (v z x = 0 ↔ ∀ i, i < names.length →
        (propertyOf B (names[i]?.getD "")).getD 0 z x = at0 gold i) := by
  subst hl
  obtain ⟨b, hb⟩ := allSpecified_ok hn hk
  have start : createLeast B eig o (.ok ext) ⟨some names, some ws, some gold⟩ =
      if b = true then allProperties B eig ext o names ws gold else itemized B ext o names ws gold := by
    unfold createLeast
    simp only [Crit.get, Res.ok_bind]
    rw [if_neg (by omega), if_neg (by omega), hb, Res.ok_bind]
  rw [start]
  cases b with
  | true =>
    rw [if_pos rfl]
    have hperm := (C70_all_iff names).1 hb
    have hD : ∃ n ∈ names, isCentre n := ⟨"CGx", hperm.mem_iff.2 (by decide), .inl rfl⟩
    refine (C70_all hB h3 ho ext eig names ws gold ho').mono fun p hp => ⟨_, hp.mono fun z x h => h hD, fun z x => ?_⟩
    have hwp : ∀ n ∈ allNames, 0 < lookUp names ws n := by
      intro n hn'
      obtain ⟨i, hi, rfl⟩ := List.getElem_of_mem (hperm.mem_iff.2 hn')
      rw [lookUp_eq hn hw hi]
      exact hpos i hi
    have hz := C70_zero (B := B) eig ext hwp he z x
    refine ⟨?_, ?_⟩
    · refine List.sum_nonneg fun a ha => ?_
      obtain ⟨t, ht, rfl⟩ := List.mem_map.1 ha
      have hpos' : ∀ t ∈ allTerms B (frameOf eig (lookUp names gold)) (parallelAxis ![lookUp names gold "CGx",
          lookUp names gold "CGy", lookUp names gold "CGz"]) ext (lookUp names ws) (lookUp names gold), 0 < t.w := by
        have hw' := hwp
        simp only [allNames, List.forall_mem_cons] at hw'
        obtain ⟨w0, w1, w2, w3, w4, w5, w6, w7, w8, w9, -⟩ := hw'
        simp only [allTerms, List.forall_mem_cons]
        exact ⟨w0, w1, w2, w3, w4, w5, w6, w7, w8, w9, by simp⟩
      exact mul_nonneg (hpos' t ht).le (sq_nonneg _)
    · rw [hz, centre_ext, inertia_ext]
      have key : (∀ i, i < names.length → (propertyOf B (names[i]?.getD "")).getD 0 z x = at0 gold i) ↔
          ∀ n ∈ allNames, (propertyOf B n).getD 0 z x = lookUp names gold n := by
        constructor
        · intro h n hn'
          obtain ⟨i, hi, rfl⟩ := List.getElem_of_mem (hperm.mem_iff.2 hn')
          rw [lookUp_eq hn hg hi, ← h i hi, List.getElem?_eq_getElem hi]
          rfl
        · intro h i hi
          rw [← lookUp_eq hn hg hi, ← h _ (hperm.mem_iff.1 (List.getElem_mem hi)), List.getElem?_eq_getElem hi]
          rfl
      rw [key]
      simp only [allNames, List.forall_mem_cons, List.not_mem_nil, false_imp_iff, implies_true, and_true]
      show _ ↔ massOf B z x = _ ∧ centreOf B z x 0 = _ ∧ centreOf B z x 1 = _ ∧ centreOf B z x 2 = _ ∧
        inertiaOf B z x 0 0 = _ ∧ inertiaOf B z x 1 1 = _ ∧ inertiaOf B z x 2 2 = _ ∧
        inertiaOf B z x 0 1 = _ ∧ inertiaOf B z x 0 2 = _ ∧ inertiaOf B z x 1 2 = _
      tauto
  | false =>
    rw [if_neg (by simp)]
    refine (C70_items hB h3 ho ext hw hg (fun n hn => known_isSome B (hk n hn)) ho').mono fun p hp =>
      ⟨_, hp, fun z x => ⟨sum_nonneg fun i hi => mul_nonneg (hpos i (mem_range.1 hi)).le (sq_nonneg _), ?_⟩⟩
    have hs : ∀ n g, 0 < scaleOf ext n g := by
      intro n g
      unfold scaleOf
      split_ifs
      · exact extentScale_pos _
      · exact extentScale_pos _
      · exact extentScale_pos _
      · exact goldScale_pos _
    rw [sum_eq_zero_iff_of_nonneg fun i hi => mul_nonneg (hpos i (mem_range.1 hi)).le (sq_nonneg _)]
    constructor
    · intro h i hi
      exact ((term_zero (t := ⟨(propertyOf B (names[i]?.getD "")).getD 0, at0 ws i, at0 gold i,
        scaleOf ext (names[i]?.getD "") (at0 gold i)⟩) (z := z) (x := x) (hpos i hi) (hs _ _)).2).1 (h i (mem_range.2 hi))
    · intro h i hi
      exact ((term_zero (t := ⟨(propertyOf B (names[i]?.getD "")).getD 0, at0 ws i, at0 gold i,
        scaleOf ext (names[i]?.getD "") (at0 gold i)⟩) (z := z) (x := x) (hpos i (mem_range.1 hi)) (hs _ _)).2).2
          (h i (mem_range.1 hi))

end

/-! ## Rejected lists -/

/-- **C70**: a missing entry, another number of weights or gold values, or a name listed twice is an error. -/
theorem C70_rejects (B : Body) (eig : Tensor → Tensor × (Fin 3 → ℝ)) (o : List Nat → Orders) (extent : Res (ℝ × ℝ × ℝ))
    (l : PropertyList) (h : l.properties = none ∨ l.weights = none ∨ l.gold = none ∨
      (∃ n w, l.properties = some n ∧ l.weights = some w ∧ w.length ≠ n.length) ∨
      (∃ n g, l.properties = some n ∧ l.gold = some g ∧ g.length ≠ n.length) ∨
      ∃ n, l.properties = some n ∧ ¬n.Nodup) : ∃ m, createLeast B eig o extent l = .err m := by
  unfold createLeast
  rcases hn : l.properties with _ | n
  · exact ⟨_, rfl⟩
  rcases hw : l.weights with _ | w
  · exact ⟨_, rfl⟩
  rcases hg : l.gold with _ | g
  · exact ⟨_, rfl⟩
  simp only [Crit.get, Res.ok_bind]
  rw [hn, hw, hg] at h
  by_cases h1 : n.length ≠ w.length
  · rw [if_pos h1]; exact ⟨_, rfl⟩
  rw [if_neg h1]
  by_cases h2 : n.length ≠ g.length
  · rw [if_pos h2]; exact ⟨_, rfl⟩
  rw [if_neg h2]
  rcases h with h | h | h | ⟨n', w', e1, e2, h⟩ | ⟨n', g', e1, e2, h⟩ | ⟨n', e1, h⟩
  · cases h
  · cases h
  · cases h
  · cases e1; cases e2; omega
  · cases e1; cases e2; omega
  · cases e1
    obtain ⟨m, hm⟩ := C70_duplicates h
    rw [hm]
    exact ⟨m, rfl⟩

/-- A list with an unknown name is not accepted. -/
theorem C70_unknown (B : Body) (eig : Tensor → Tensor × (Fin 3 → ℝ)) (o : List Nat → Orders) (extent : Res (ℝ × ℝ × ℝ))
    (l : PropertyList) {names : List String} (hl : l.properties = some names) {n : String} (hn : n ∈ names)
    (hu : n ∉ allNames) (p : Parts) : createLeast B eig o extent l ≠ .ok p := by
  intro h
  unfold createLeast at h
  rw [hl] at h
  simp only [Crit.get, Res.ok_bind] at h
  obtain ⟨ws, -, h⟩ := bind_ok_iff.1 h
  obtain ⟨gold, -, h⟩ := bind_ok_iff.1 h
  split_ifs at h with h1 h2
  · cases h
  · cases h
  obtain ⟨b, hb, h⟩ := bind_ok_iff.1 h
  obtain ⟨ext, -, h⟩ := bind_ok_iff.1 h
  cases b with
  | true => exact hu (((C70_all_iff names).1 hb).mem_iff.1 hn)
  | false =>
    rw [if_neg (by simp)] at h
    unfold itemized at h
    obtain ⟨i, hi, rfl⟩ := List.getElem_of_mem hn
    have : ∀ k s, k ≤ i → ∀ p, forRange k names.length s (fun i (s : Parts) => do
        let nm ← rd names i
        let w ← rd ws i
        let g ← rd gold i
        addItem B ext (under o i) nm w g s) ≠ .ok p := by
      intro k s hk
      induction hk using Nat.decreasingInduction generalizing s with
      | self =>
        intro p hp
        rw [forRange_succ hi, rd_eq hi] at hp
        simp only [Res.ok_bind] at hp
        obtain ⟨s', hs', -⟩ := bind_ok_iff.1 hp
        obtain ⟨w, -, hs'⟩ := bind_ok_iff.1 hs'
        obtain ⟨g, -, hs'⟩ := bind_ok_iff.1 hs'
        simp only [allNames, List.mem_cons, List.not_mem_nil, or_false, not_or] at hu
        obtain ⟨u0, u1, u2, u3, u4, u5, u6, u7, u8, u9⟩ := hu
        unfold addItem at hs'
        rw [if_neg u0, if_neg u1, if_neg u2, if_neg u3, if_neg u4, if_neg u5, if_neg u6, if_neg u7, if_neg u8,
          if_neg u9] at hs'
        cases hs'
      | of_succ k hk ih =>
        intro p hp
        rw [forRange_succ (by omega)] at hp
        obtain ⟨s', -, hp⟩ := bind_ok_iff.1 hp
        exact ih s' p hp
    exact this 0 _ (Nat.zero_le _) p h

end Plato.Mass
