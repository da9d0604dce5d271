import Mathlib.Algebra.BigOperators.Group.Finset.Sigma
import Verif.Fem.Lookup

/-!
# Execution of atomic updates, and what it does to the dense matrix
-/

namespace Plato
open Finset
variable {K : Type}

theorem atomicAdd_sat [AddCommMonoid K] {v : List K} {p : Nat} {a : K} (h : p < v.length) :
    atomicAdd v p a = Res.ok (v.set p (at0 v p + a)) := by
  unfold atomicAdd
  rw [rd_at0 h]
  simp only [Res.ok_bind]
  exact wr_eq h

/-- Whatever the order of execution, each view entry grows by the sum of the values of the updates
that address it. -/
theorem runAtomics_sat [AddCommMonoid K] {ops : List (Nat × K)} {v : List K} {order : List Nat}
    (ho : IsSchedule order ops.length) (hp : ∀ op ∈ ops, op.1 < v.length) :
    (runAtomics order ops v).Sat fun v' => v'.length = v.length ∧
      ∀ q, at0 v' q = at0 v q + (ops.map fun op => if op.1 = q then op.2 else 0).sum := by
  let g : Nat → Nat → K := fun q t =>
    match ops[t]? with
    | some op => if op.1 = q then op.2 else 0
    | none => 0
  have hsum : ∀ q, ∑ t ∈ range ops.length, g q t =
      (ops.map fun op => if op.1 = q then op.2 else 0).sum := by
    intro q
    have key : ∀ l : List (Nat × K), ∑ t ∈ range l.length,
        (match l[t]? with
          | some op => if op.1 = q then op.2 else 0
          | none => 0) = (l.map fun op => if op.1 = q then op.2 else 0).sum := by
      intro l
      induction l with
      | nil => simp
      | cons a l ih =>
        rw [List.length_cons, sum_range_succ', List.map_cons, List.sum_cons, ← ih]
        simp [add_comm]
    exact key ops
  refine (parFor_sched ho (fun D s => s.length = v.length ∧
    ∀ q, at0 s q = at0 v q + ∑ t ∈ D, g q t) ⟨rfl, by simp⟩ ?_).mono ?_
  · rintro D t s ht hD hsub ⟨hl, hs⟩
    rw [rd_eq ht]
    simp only [Res.ok_bind]
    have hpt := hp ops[t] (List.getElem_mem ht)
    rw [atomicAdd_sat (by omega)]
    refine Res.Sat.ok ⟨by simpa using hl, ?_⟩
    intro q
    rw [at0_set (by omega), sum_insert hD]
    have hg : g q t = if (ops[t]).1 = q then (ops[t]).2 else 0 := by
      simp only [g, List.getElem?_eq_getElem ht]
    rw [hg]
    by_cases hq : q = (ops[t]).1
    · rw [if_pos hq, if_pos hq.symm, ← hq, hs q, add_assoc, add_comm (∑ t ∈ D, g q t)]
    · rw [if_neg hq, if_neg (Ne.symm hq), hs q, zero_add]
  · rintro s ⟨hl, hs⟩
    exact ⟨hl, fun q => by rw [hs q, hsum q]⟩

/-- A loop that appends to a list. -/
theorem forUp_append {α : Type} {body : Nat → List α → Res (List α)} (f : Nat → List α) :
    ∀ (n i : Nat) (acc : List α),
      (∀ j, i ≤ j → j < i + n → ∀ acc, body j acc = Res.ok (acc ++ f j)) →
      forUp body n i acc = Res.ok (acc ++ (List.range' i n).flatMap f) := by
  intro n
  induction n with
  | zero => intro i acc _; simp [forUp]
  | succ n ih =>
    intro i acc h
    unfold forUp
    rw [h i (Nat.le_refl _) (by omega), Res.ok_bind,
      ih (i + 1) _ (fun j h1 h2 => h j (by omega) (by omega))]
    simp [List.range'_succ]

theorem forRange_append {α : Type} {body : Nat → List α → Res (List α)} (f : Nat → List α)
    {n : Nat} (acc : List α) (h : ∀ j, j < n → ∀ acc, body j acc = Res.ok (acc ++ f j)) :
    forRange 0 n acc body = Res.ok (acc ++ (List.range n).flatMap f) := by
  unfold forRange
  rw [forUp_append f _ _ _ (fun j _ h2 => h j (by omega)), List.range_eq_range']
  simp

theorem sum_map_flatMap_range [AddCommMonoid K] {α : Type} (f : Nat → List α) (g : α → K) (n : Nat) :
    (((List.range n).flatMap f).map g).sum = ∑ i ∈ range n, ((f i).map g).sum := by
  induction n with
  | zero => simp
  | succ n ih =>
    rw [List.range_succ, List.flatMap_append, List.map_append, List.sum_append, ih, sum_range_succ]
    simp

theorem sum_map_range [AddCommMonoid K] (g : Nat → K) (n : Nat) :
    ((List.range n).map g).sum = ∑ i ∈ range n, g i := by
  induction n with
  | zero => simp
  | succ n ih => rw [List.range_succ]; simp [ih, sum_range_succ]

theorem length_flatMap_range {α : Type} (f : Nat → List α) (n m : Nat)
    (h : ∀ i, i < n → (f i).length = m) : ((List.range n).flatMap f).length = n * m := by
  induction n with
  | zero => simp
  | succ n ih =>
    rw [List.range_succ, List.flatMap_append, List.length_append,
      ih (fun i hi => h i (by omega))]
    simp [h n (by omega), Nat.succ_mul]

/-- A stored position belongs to one dense entry. -/
theorem holdsAt_unique {A : Crs K} {n p I r J c I' r' J' c' : Nat}
    (hmono : ∀ i, i < n → atN A.rowMap i ≤ atN A.rowMap (i + 1)) (hI : I < n)
    (hI' : I' < n) (hr : r < A.rpb) (hr' : r' < A.rpb) (hc : c < A.cpb) (hc' : c' < A.cpb)
    (h1 : A.HoldsAt p I r J c) (h2 : A.HoldsAt p I' r' J' c') :
    I = I' ∧ r = r' ∧ J = J' ∧ c = c' := by
  obtain ⟨k, k1, k2, k3, k4⟩ := h1
  obtain ⟨l, l1, l2, l3, l4⟩ := h2
  have b1 : A.cpb * r + c < A.rpb * A.cpb := block_lt hc hr
  have b2 : A.cpb * r' + c' < A.rpb * A.cpb := block_lt hc' hr'
  have ek : k = l := by
    have e1 := div_block (q := k) b1
    have e2 := div_block (q := l) b2
    rw [← Nat.add_assoc, ← k4] at e1
    rw [← Nat.add_assoc, ← l4] at e2
    exact e1.symm.trans e2
  subst ek
  have ew : A.cpb * r + c = A.cpb * r' + c' := by omega
  have er : r = r' := by
    have e1 := div_block (q := r) hc
    rw [ew, div_block hc'] at e1
    exact e1.symm
  subst er
  exact ⟨row_unique hmono hI hI' k1 k2 l1 l2, rfl, k3.symm.trans l3, by omega⟩

/-- Adding `x` at a stored position adds `x` to the dense entry the position belongs to, and
nothing elsewhere. -/
theorem dense_unit [AddCommMonoid K] {A : Crs K} {n p I r J c i j : Nat} {x : K}
    (hmono : ∀ i, i < n → atN A.rowMap i ≤ atN A.rowMap (i + 1)) (hI : I < n)
    (hr : r < A.rpb) (hc : c < A.cpb) (h : A.HoldsAt p I r J c) (hi : i < n * A.rpb) :
    (∑ k ∈ Ico (atN A.rowMap (i / A.rpb)) (atN A.rowMap (i / A.rpb + 1)),
      if atN A.cols k = j / A.cpb then
        (if p = A.rpb * A.cpb * k + A.cpb * (i % A.rpb) + j % A.cpb then x else 0) else 0) =
    if A.rpb * I + r = i ∧ A.cpb * J + c = j then x else 0 := by
  have hin : i / A.rpb < n := div_lt_of_lt hi
  have hir : i % A.rpb < A.rpb := Nat.mod_lt _ (by omega)
  have hjc : j % A.cpb < A.cpb := Nat.mod_lt _ (by omega)
  by_cases hij : A.rpb * I + r = i ∧ A.cpb * J + c = j
  · rw [if_pos hij]
    obtain ⟨rfl, rfl⟩ := hij
    rw [div_block hr, div_block hc, mod_block hr, mod_block hc]
    have h' := h
    obtain ⟨k, k1, k2, k3, k4⟩ := h
    rw [sum_eq_single k]
    · rw [if_pos k3, if_pos k4]
    · intro l hl hne
      rw [mem_Ico] at hl
      by_cases hcl : atN A.cols l = J
      · rw [if_pos hcl, if_neg]
        intro hp
        apply hne
        have b1 : A.cpb * r + c < A.rpb * A.cpb := block_lt hc hr
        have e1 := div_block (q := k) b1
        have e2 := div_block (q := l) b1
        rw [← Nat.add_assoc, ← k4] at e1
        rw [← Nat.add_assoc, ← hp] at e2
        exact e2.symm.trans e1
      · rw [if_neg hcl]
    · intro hk
      exact absurd (mem_Ico.2 ⟨k1, k2⟩) hk
  · rw [if_neg hij]
    apply sum_eq_zero
    intro k hk
    rw [mem_Ico] at hk
    by_cases hcl : atN A.cols k = j / A.cpb
    · rw [if_pos hcl, if_neg]
      intro hp
      obtain ⟨e1, e2, e3, e4⟩ := holdsAt_unique hmono hI hin hr hir hc hjc h
        ⟨k, hk.1, hk.2, hcl, hp⟩
      apply hij
      rw [e1, e2, e3, e4]
      exact ⟨Nat.div_add_mod _ _, Nat.div_add_mod _ _⟩
    · rw [if_neg hcl]

/-- Effect of a family of additions at stored positions on the dense matrix. -/
theorem dense_update [AddCommMonoid K] {ι : Type} {A : Crs K} {v' : List K} {n : Nat}
    (hmono : ∀ i, i < n → atN A.rowMap i ≤ atN A.rowMap (i + 1)) (S : Finset ι)
    (pos : ι → Nat) (val : ι → K) (fI fr fJ fc : ι → Nat)
    (hpos : ∀ t ∈ S, A.HoldsAt (pos t) (fI t) (fr t) (fJ t) (fc t) ∧ fI t < n ∧ fr t < A.rpb ∧
      fc t < A.cpb)
    (hv : ∀ q, at0 v' q = at0 A.vals q + ∑ t ∈ S, if pos t = q then val t else 0)
    {i j : Nat} (hi : i < n * A.rpb) :
    Crs.dense { A with vals := v' } i j = A.dense i j +
      ∑ t ∈ S, if A.rpb * fI t + fr t = i ∧ A.cpb * fJ t + fc t = j then val t else 0 := by
  have e1 : ∀ t ∈ S, (if A.rpb * fI t + fr t = i ∧ A.cpb * fJ t + fc t = j then val t else 0) =
      ∑ k ∈ Ico (atN A.rowMap (i / A.rpb)) (atN A.rowMap (i / A.rpb + 1)),
      if atN A.cols k = j / A.cpb then
        (if pos t = A.rpb * A.cpb * k + A.cpb * (i % A.rpb) + j % A.cpb then val t else 0)
        else 0 := by
    intro t ht
    obtain ⟨h1, h2, h3, h4⟩ := hpos t ht
    exact (dense_unit hmono h2 h3 h4 h1 hi).symm
  rw [sum_congr rfl e1, sum_comm]
  unfold Crs.dense
  rw [← sum_add_distrib]
  apply sum_congr rfl
  intro k _
  by_cases hk : atN A.cols k = j / A.cpb
  · simp only [if_pos hk]; exact hv _
  · simp [if_neg hk]

end Plato
