import Mathlib.Algebra.Order.BigOperators.Group.Finset
import Verif.Crs.CondenseModel
import Verif.Crs.ConvertProps

/-!
# Specification of the external sparse kernels, and instances that meet it
-/

namespace Plato
open Finset
variable {K : Type}

/-- Columns stored in scalar row `i`. -/
def Csr.rowCols (d : Csr K) (i : Nat) : List Nat :=
  (List.range' (atN d.1 i) (atN d.1 (i + 1) - atN d.1 i)).map (atN d.2.1)

/-- Dense content of scalar CRS data. -/
def Csr.dense [AddCommMonoid K] (d : Csr K) (i j : Nat) : K := denseOf d.1 (d.2.1, d.2.2) i j

/-- Well formed scalar CRS data with `n` rows. -/
structure Csr.OK (d : Csr K) (n : Nat) : Prop where
  rm_len : d.1.length = n + 1
  rm_zero : atN d.1 0 = 0
  mono : ∀ i, i < n → atN d.1 i ≤ atN d.1 (i + 1)
  last : atN d.1 n = d.2.1.length
  vals : d.2.2.length = d.2.1.length

/-- What the KokkosKernels product of scalar CRS matrices returns: no repeated column in a row,
the structural product pattern, and the product values.  (Order of columns is free.) -/
def SpgemmSpec [CommSemiring K] (n k : Nat) (d1 d2 out : Csr K) : Prop :=
  out.OK n ∧ ∀ i, i < n → (out.rowCols i).Nodup ∧
    (∀ j, j ∈ out.rowCols i ↔ ∃ l ∈ d1.rowCols i, j ∈ d2.rowCols l) ∧
    ∀ j, out.dense i j = ∑ l ∈ range k, d1.dense i l * d2.dense l j

/-- What the KokkosKernels sum `a * d1 + b * d2` of scalar CRS matrices returns. -/
def SpaddSpec [CommSemiring K] (n : Nat) (d1 : Csr K) (a : K) (d2 : Csr K) (b : K) (out : Csr K) :
    Prop :=
  out.OK n ∧ ∀ i, i < n → (out.rowCols i).Nodup ∧
    (∀ j, j ∈ out.rowCols i ↔ j ∈ d1.rowCols i ∨ j ∈ d2.rowCols i) ∧
    ∀ j, out.dense i j = a * d1.dense i j + b * d2.dense i j

/-- The KokkosKernels product meets its specification on every valid input. -/
def SpgemmOK [CommSemiring K] (spgemm : Nat → Nat → Nat → Csr K → Csr K → Res (Csr K)) : Prop :=
  ∀ n k m d1 d2, d1.OK n → d2.OK k →
    (∀ i, i < n → ∀ l ∈ d1.rowCols i, l < k) →
    (spgemm n k m d1 d2).Sat (SpgemmSpec n k d1 d2)

/-- The KokkosKernels sum meets its specification on every valid input. -/
def SpaddOK [CommSemiring K] (spadd : Nat → Csr K → K → Csr K → K → Res (Csr K)) : Prop :=
  ∀ n d1 a d2 b, d1.OK n → d2.OK n → (spadd n d1 a d2 b).Sat (SpaddSpec n d1 a d2 b)

/-! ### Reference kernels: the specifications can be met -/

theorem flatMap_range_get {α : Type} (f : Nat → List α) (n i q : Nat) (hi : i < n)
    (hq : q < (f i).length) :
    ((List.range n).flatMap f)[(∑ x ∈ range i, (f x).length) + q]? = some (f i)[q] := by
  induction n with
  | zero => omega
  | succ n ih =>
    rw [List.range_succ, List.flatMap_append]
    have hlen : ∀ m, ((List.range m).flatMap f).length = ∑ x ∈ range m, (f x).length := by
      intro m
      induction m with
      | zero => simp
      | succ m ihm =>
        rw [List.range_succ, List.flatMap_append, List.length_append, ihm, sum_range_succ]
        simp
    by_cases hc : i = n
    · subst hc
      rw [List.getElem?_append_right (by rw [hlen]; omega), hlen]
      simp [hq]
    · have hin : i < n := by omega
      have h2 : (∑ x ∈ range i, (f x).length) + q < ∑ x ∈ range n, (f x).length := by
        have h3 : ∑ x ∈ range (i + 1), (f x).length ≤ ∑ x ∈ range n, (f x).length :=
          sum_le_sum_of_subset (range_subset_range.2 hin)
        rw [sum_range_succ] at h3
        omega
      rw [List.getElem?_append_left (by rw [hlen]; exact h2)]
      exact ih hin

/-- CRS data with given rows. -/
def buildCsr (n : Nat) (f : Nat → List Nat) (g : Nat → Nat → K) : Csr K :=
  ((List.range (n + 1)).map fun i => ∑ x ∈ range i, (f x).length,
    (List.range n).flatMap f, (List.range n).flatMap fun i => (f i).map (g i))

theorem buildCsr_OK (n : Nat) (f : Nat → List Nat) (g : Nat → Nat → K) :
    (buildCsr n f g).OK n := by
  have hrm : ∀ i, i ≤ n → atN (buildCsr n f g).1 i = ∑ x ∈ range i, (f x).length := by
    intro i hi
    unfold buildCsr atN
    exact at0_map_range _ _ _ (by omega)
  have hlen : ∀ (β : Type) (h : Nat → List β), (∀ i, (h i).length = (f i).length) →
      ∀ m, ((List.range m).flatMap h).length = ∑ x ∈ range m, (f x).length := by
    intro β h hh m
    induction m with
    | zero => simp
    | succ m ihm =>
      rw [List.range_succ, List.flatMap_append, List.length_append, ihm, sum_range_succ]
      simp [hh]
  refine ⟨by simp [buildCsr], by rw [hrm 0 (Nat.zero_le _)]; simp, ?_, ?_, ?_⟩
  · intro i hi
    rw [hrm i (by omega), hrm (i + 1) (by omega), sum_range_succ]; omega
  · rw [hrm n (Nat.le_refl _)]
    exact (hlen _ f (fun _ => rfl) n).symm
  · exact (hlen K _ (fun i => by simp) n).trans (hlen Nat f (fun _ => rfl) n).symm

theorem buildCsr_rows [AddCommMonoid K] (n : Nat) (f : Nat → List Nat) (g : Nat → Nat → K) {i : Nat}
    (hi : i < n) (hnd : (f i).Nodup) :
    (buildCsr n f g).rowCols i = f i ∧
      ∀ j, (buildCsr n f g).dense i j = if j ∈ f i then g i j else 0 := by
  have hrm : ∀ i, i ≤ n → atN (buildCsr n f g).1 i = ∑ x ∈ range i, (f x).length := by
    intro i hi
    unfold buildCsr atN
    exact at0_map_range _ _ _ (by omega)
  have e1 := hrm i (by omega)
  have e2 := hrm (i + 1) (by omega)
  rw [sum_range_succ] at e2
  have hc : ∀ q, (hq : q < (f i).length) →
      atN (buildCsr n f g).2.1 ((∑ x ∈ range i, (f x).length) + q) = (f i)[q] := by
    intro q hq
    have := flatMap_range_get f n i q hi hq
    show at0 ((List.range n).flatMap f) _ = _
    unfold at0
    rw [this]; rfl
  have hv : ∀ q, (hq : q < (f i).length) →
      at0 (buildCsr n f g).2.2 ((∑ x ∈ range i, (f x).length) + q) = g i (f i)[q] := by
    intro q hq
    have := flatMap_range_get (fun i => (f i).map (g i)) n i q hi (by simpa using hq)
    simp only [List.length_map, List.getElem_map] at this
    show at0 ((List.range n).flatMap fun i => (f i).map (g i)) _ = _
    unfold at0
    rw [this]; rfl
  refine ⟨?_, ?_⟩
  · unfold Csr.rowCols
    rw [e1, e2, Nat.add_sub_cancel_left]
    apply List.ext_getElem
    · simp
    · intro q h1 h2
      rw [List.getElem_map, List.getElem_range']
      rw [Nat.one_mul]
      exact hc q h2
  · intro j
    unfold Csr.dense denseOf
    rw [e1, e2, sum_Ico_shift]
    rw [sum_congr rfl (g := fun q => if (f i)[q]? = some j then g i j else 0)]
    · by_cases hj : j ∈ f i
      · rw [if_pos hj]
        obtain ⟨p, hp, hpj⟩ := List.getElem_of_mem hj
        rw [sum_eq_single p]
        · rw [if_pos]; rw [List.getElem?_eq_getElem hp, hpj]
        · intro q hq hne
          rw [if_neg]
          intro h
          have hq' := mem_range.1 hq
          rw [List.getElem?_eq_getElem hq', Option.some.injEq, ← hpj] at h
          exact hne ((List.Nodup.getElem_inj_iff hnd).1 h)
        · intro h; exact absurd (mem_range.2 hp) h
      · rw [if_neg hj]
        apply sum_eq_zero
        intro q hq
        rw [if_neg]
        intro h
        have hq' := mem_range.1 hq
        rw [List.getElem?_eq_getElem hq', Option.some.injEq] at h
        exact hj (h ▸ List.getElem_mem _)
    · intro q hq
      have hq' := mem_range.1 hq
      simp only
      rw [hc q hq', hv q hq', List.getElem?_eq_getElem hq']
      by_cases hh : (f i)[q] = j
      · rw [if_pos hh, if_pos (by rw [hh]), hh]
      · rw [if_neg hh, if_neg (by simpa using hh)]

theorem dense_eq_zero [AddCommMonoid K] (d : Csr K) (i j : Nat) (h : j ∉ d.rowCols i) :
    d.dense i j = 0 := by
  unfold Csr.dense denseOf
  apply sum_eq_zero
  intro k hk
  rw [if_neg]
  intro he
  apply h
  unfold Csr.rowCols
  rw [List.mem_map]
  have := mem_Ico.1 hk
  exact ⟨k, by rw [List.mem_range'_1]; omega, he⟩

/-- A reference product kernel that meets the specification. -/
theorem exists_spgemm [CommSemiring K] :
    ∃ f : Nat → Nat → Nat → Csr K → Csr K → Res (Csr K), SpgemmOK f := by
  refine ⟨fun n k _ d1 d2 => Res.ok (buildCsr n
    (fun i => ((d1.rowCols i).flatMap fun l => d2.rowCols l).dedup)
    (fun i j => ∑ l ∈ range k, d1.dense i l * d2.dense l j)), ?_⟩
  intro n k m d1 d2 _ _ _
  refine Res.Sat.ok ⟨buildCsr_OK _ _ _, ?_⟩
  intro i hi
  obtain ⟨h1, h2⟩ := buildCsr_rows n (fun i => ((d1.rowCols i).flatMap fun l => d2.rowCols l).dedup)
    (fun i j => ∑ l ∈ range k, d1.dense i l * d2.dense l j) hi (List.nodup_dedup _)
  refine ⟨by rw [h1]; exact List.nodup_dedup _, ?_, ?_⟩
  · intro j; rw [h1]; simp
  · intro j
    rw [h2]
    split
    · rfl
    · rename_i hj
      symm
      apply sum_eq_zero
      intro l _
      simp only [List.mem_dedup, List.mem_flatMap, not_exists, not_and] at hj
      by_cases hl : l ∈ d1.rowCols i
      · rw [dense_eq_zero d2 l j (hj l hl), mul_zero]
      · rw [dense_eq_zero d1 i l hl, zero_mul]

/-- A reference sum kernel that meets the specification. -/
theorem exists_spadd [CommSemiring K] :
    ∃ f : Nat → Csr K → K → Csr K → K → Res (Csr K), SpaddOK f := by
  refine ⟨fun n d1 a d2 b => Res.ok (buildCsr n
    (fun i => (d1.rowCols i ++ d2.rowCols i).dedup)
    (fun i j => a * d1.dense i j + b * d2.dense i j)), ?_⟩
  intro n d1 a d2 b _ _
  refine Res.Sat.ok ⟨buildCsr_OK _ _ _, ?_⟩
  intro i hi
  obtain ⟨h1, h2⟩ := buildCsr_rows n (fun i => (d1.rowCols i ++ d2.rowCols i).dedup)
    (fun i j => a * d1.dense i j + b * d2.dense i j) hi (List.nodup_dedup _)
  refine ⟨by rw [h1]; exact List.nodup_dedup _, ?_, ?_⟩
  · intro j; rw [h1]; simp
  · intro j
    rw [h2]
    split
    · rfl
    · rename_i hj
      simp only [List.mem_dedup, List.mem_append, not_or] at hj
      rw [dense_eq_zero d1 i j hj.1, dense_eq_zero d2 i j hj.2, mul_zero, mul_zero, add_zero]

end Plato
