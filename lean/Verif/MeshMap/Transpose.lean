import Verif.Bc.Threads
import Verif.Blas.Vector
import Verif.MeshMap.Model

/-!
# The transpose of the mesh map under every interleaving (C16)
-/

namespace Plato

open Finset

variable {K : Type}

/-! ## Specification -/

/-- A square sparse matrix with `n` rows whose arrays have consistent extents. -/
structure SpMat.WF (A : SpMat K) (n : Nat) : Prop where
  rowMap_length : A.rowMap.length = n + 1
  rowMap_zero : atN A.rowMap 0 = 0
  rowMap_mono : ∀ i, i < n → atN A.rowMap i ≤ atN A.rowMap (i + 1)
  rowMap_last : atN A.rowMap n = A.cols.length
  ents_length : A.ents.length = A.cols.length
  cols_lt : ∀ k, k < A.cols.length → atN A.cols k < n
  numRows_eq : A.numRows = n
  numCols_eq : A.numCols = n

/-- Entry `k` is stored in row `r`. -/
def SpMat.InRow (A : SpMat K) (k r : Nat) : Prop :=
  atN A.rowMap r ≤ k ∧ k < atN A.rowMap (r + 1)

instance (A : SpMat K) (k r : Nat) : Decidable (A.InRow k r) :=
  inferInstanceAs (Decidable (_ ∧ _))

/-- The dense entry: the sum of the stored entries of row `i` in column `j`. -/
def SpMat.dense [AddCommMonoid K] (A : SpMat K) (i j : Nat) : K :=
  ∑ k ∈ Ico (atN A.rowMap i) (atN A.rowMap (i + 1)), if atN A.cols k = j then at0 A.ents k else 0

/-- `T` holds every entry of `A` exactly once, at the mirrored place: `slot` is a bijection between
the positions of `A` and those of `T`. -/
structure IsTranspose [Zero K] (A T : SpMat K) (slot : Nat → Nat) : Prop where
  cols_length : T.cols.length = A.cols.length
  maps : ∀ k, k < A.cols.length → slot k < A.cols.length
  inj : ∀ k k', k < A.cols.length → k' < A.cols.length → slot k = slot k' → k = k'
  surj : ∀ p, p < A.cols.length → ∃ k, k < A.cols.length ∧ slot k = p
  row : ∀ k, k < A.cols.length → T.InRow (slot k) (atN A.cols k)
  col : ∀ k r, k < A.cols.length → r < A.numRows → A.InRow k r → atN T.cols (slot k) = r
  ent : ∀ k, k < A.cols.length → at0 T.ents (slot k) = at0 A.ents k

/-! ## Interleavings -/

/-- Operations of thread `t` in a merged list. -/
def tproj {α : Type} (t : Nat) (M : List (Nat × α)) : List α :=
  (M.filter fun x => decide (x.1 = t)).map Prod.snd

/-- `M` is an interleaving of the programs `progs`. -/
def IsInterleaving {α : Type} (progs : List (List α)) (M : List (Nat × α)) : Prop :=
  (∀ x ∈ M, x.1 < progs.length) ∧ ∀ t, t < progs.length → progs[t]? = some (tproj t M)

theorem tproj_append {α : Type} (t : Nat) (M N : List (Nat × α)) :
    tproj t (M ++ N) = tproj t M ++ tproj t N := by simp [tproj]

theorem tproj_cons_self {α : Type} (t : Nat) (op : α) (M : List (Nat × α)) :
    tproj t ((t, op) :: M) = op :: tproj t M := by simp [tproj]

theorem tproj_cons_ne {α : Type} {t t' : Nat} (h : t' ≠ t) (op : α) (M : List (Nat × α)) :
    tproj t ((t', op) :: M) = tproj t M := by simp [tproj, h]

theorem mem_tproj {α : Type} {t : Nat} {op : α} {M : List (Nat × α)} :
    op ∈ tproj t M ↔ (t, op) ∈ M := by
  unfold tproj
  rw [List.mem_map]
  constructor
  · rintro ⟨⟨t', op'⟩, h, rfl⟩
    simp at h
    obtain ⟨h1, rfl⟩ := h
    exact h1
  · intro h
    exact ⟨(t, op), by simpa using h, rfl⟩

/-- Sum over an interleaving is the sum over the programs. -/
theorem interleaving_sum {α : Type} {progs : List (List α)} {M : List (Nat × α)}
    (h : IsInterleaving progs M) (f : α → Nat) :
    (M.map fun x => f x.2).sum = ∑ t ∈ range progs.length, ((progs.getD t []).map f).sum := by
  have key : ∀ (n : Nat) (M : List (Nat × α)), (∀ x ∈ M, x.1 < n) →
      (M.map fun x => f x.2).sum = ∑ t ∈ range n, ((tproj t M).map f).sum := by
    intro n M
    induction M with
    | nil => intro _; simp [tproj]
    | cons x M ih =>
      intro hx
      have e : ∀ t ∈ range n, ((tproj t (x :: M)).map f).sum =
          (if t = x.1 then f x.2 else 0) + ((tproj t M).map f).sum := by
        intro t _
        by_cases ht : t = x.1
        · subst ht
          rw [if_pos rfl, show x = (x.1, x.2) from rfl, tproj_cons_self]
          simp
        · rw [if_neg ht, show x = (x.1, x.2) from rfl, tproj_cons_ne (Ne.symm ht), zero_add]
      rw [sum_congr rfl e, sum_add_distrib, ← ih (fun y hy => hx y (by simp [hy])), List.map_cons,
        List.sum_cons, sum_ite_eq' (range n) x.1 (fun _ => f x.2),
        if_pos (mem_range.2 (hx x (by simp)))]
  rw [key progs.length M h.1]
  refine sum_congr rfl fun t ht => ?_
  rw [List.getD_eq_getElem?_getD, h.2 t (mem_range.1 ht)]
  rfl

/-! ## Rows -/

namespace SpMat.WF

variable {A : SpMat K} {n : Nat} (h : A.WF n)
include h

theorem mono {i j : Nat} (hij : i ≤ j) (hj : j ≤ n) : atN A.rowMap i ≤ atN A.rowMap j := by
  induction j with
  | zero => rw [Nat.le_zero.1 hij]
  | succ j ih =>
    rcases Nat.lt_or_ge i (j + 1) with h1 | h1
    · exact (ih (by omega) (by omega)).trans (h.rowMap_mono j (by omega))
    · rw [Nat.le_antisymm hij h1]

theorem row_le {r : Nat} (hr : r < n) : atN A.rowMap r ≤ atN A.rowMap (r + 1) ∧
    atN A.rowMap (r + 1) ≤ A.cols.length :=
  ⟨h.rowMap_mono r hr, by rw [← h.rowMap_last]; exact h.mono (by omega) (Nat.le_refl n)⟩

theorem exists_row {k : Nat} (hk : k < A.cols.length) : ∃ r, r < n ∧ A.InRow k r :=
  locate (atN A.rowMap) n k (by rw [h.rowMap_zero]; omega) (by rw [h.rowMap_last]; exact hk)

theorem row_unique {k r r' : Nat} (hr : r < n) (hr' : r' < n) (h1 : A.InRow k r)
    (h2 : A.InRow k r') : r = r' := by
  rcases Nat.lt_trichotomy r r' with hlt | heq | hlt
  · have := h.mono (i := r + 1) (j := r') hlt (by omega)
    have := h1.2; have := h2.1; omega
  · exact heq
  · have := h.mono (i := r' + 1) (j := r) hlt (by omega)
    have := h2.2; have := h1.1; omega

/-- Sum over all entries, row by row. -/
theorem sum_rows {M : Type} [AddCommMonoid M] (f : Nat → M) :
    ∑ r ∈ range n, ∑ k ∈ Ico (atN A.rowMap r) (atN A.rowMap (r + 1)), f k =
      ∑ k ∈ range A.cols.length, f k := by
  have key : ∀ m, m ≤ n → ∑ r ∈ range m, ∑ k ∈ Ico (atN A.rowMap r) (atN A.rowMap (r + 1)), f k =
      ∑ k ∈ range (atN A.rowMap m), f k := by
    intro m
    induction m with
    | zero => intro _; rw [h.rowMap_zero]; simp
    | succ m ih =>
      intro hm
      rw [sum_range_succ, ih (by omega), range_eq_Ico, range_eq_Ico,
        sum_Ico_consecutive _ (Nat.zero_le _) (h.rowMap_mono m (by omega))]
  rw [key n (Nat.le_refl n), h.rowMap_last]

/-- A row sum as a sum over all entries. -/
theorem sum_row {M : Type} [AddCommMonoid M] (f : Nat → M) {r : Nat} (hr : r < n) :
    ∑ k ∈ Ico (atN A.rowMap r) (atN A.rowMap (r + 1)), f k =
      ∑ k ∈ range A.cols.length, if A.InRow k r then f k else 0 := by
  have := (h.row_le hr).2
  rw [← Finset.sum_filter (fun k => A.InRow k r)]
  refine sum_congr (Finset.ext fun k => ?_) fun _ _ => rfl
  rw [Finset.mem_filter, mem_Ico, mem_range, SpMat.InRow]
  omega

end SpMat.WF

/-! ## The count and scan kernels -/

/-- Number of entries in column `c`. -/
def SpMat.colCount (A : SpMat K) (c : Nat) : Nat :=
  ∑ k ∈ range A.cols.length, if atN A.cols k = c then 1 else 0

/-- Number of entries in columns before `c`. -/
def SpMat.colStart (A : SpMat K) (c : Nat) : Nat := ∑ c' ∈ range c, A.colCount c'

theorem SpMat.colStart_succ (A : SpMat K) (c : Nat) :
    A.colStart (c + 1) = A.colStart c + A.colCount c := sum_range_succ _ _

theorem SpMat.colStart_mono (A : SpMat K) {c d : Nat} (h : c ≤ d) : A.colStart c ≤ A.colStart d :=
  sum_le_sum_of_subset (range_subset_range.2 h)

theorem SpMat.WF.colStart_last {A : SpMat K} {n : Nat} (h : A.WF n) :
    A.colStart n = A.cols.length := by
  unfold SpMat.colStart SpMat.colCount
  rw [sum_comm]
  have : ∀ k ∈ range A.cols.length, ∑ c ∈ range n, (if atN A.cols k = c then 1 else 0) = 1 := by
    intro k hk
    rw [sum_ite_eq (range n) (atN A.cols k) fun _ => 1,
      if_pos (mem_range.2 (h.cols_lt k (mem_range.1 hk)))]
  rw [sum_congr rfl this]
  simp

theorem transposeCountOps_eq {A : SpMat K} {n : Nat} (h : A.WF n) :
    transposeCountOps A = Res.ok ((List.range n).flatMap fun r =>
      (List.range' (atN A.rowMap r) (atN A.rowMap (r + 1) - atN A.rowMap r)).flatMap fun e =>
        [(atN A.cols e, 1)]) := by
  unfold transposeCountOps
  rw [h.numRows_eq]
  have := forRange_append' (lo := 0) (hi := n) (body := fun r ops => do
      let lo ← rd A.rowMap r
      let hi ← rd A.rowMap (r + 1)
      forRange lo hi ops fun e ops => do
        let c ← rd A.cols e
        pure (ops ++ [(c, 1)])) (fun r =>
    (List.range' (atN A.rowMap r) (atN A.rowMap (r + 1) - atN A.rowMap r)).flatMap fun e =>
        [(atN A.cols e, 1)]) [] (by
    intro r _ hr acc
    have hl := h.rowMap_length
    rw [rd_atN (by omega), Res.ok_bind, rd_atN (by omega), Res.ok_bind]
    refine forRange_append' (fun e => [(atN A.cols e, 1)]) acc ?_
    intro e h1 h2 acc
    have := (h.row_le hr).2
    rw [rd_atN (by omega)]
    rfl)
  rw [this, List.nil_append, Nat.sub_zero, ← List.range_eq_range']

theorem sum_range'_map {M : Type} [AddCommMonoid M] (f : Nat → M) (lo len : Nat) :
    ((List.range' lo len).map f).sum = ∑ k ∈ Ico lo (lo + len), f k := by
  induction len generalizing lo with
  | zero => simp
  | succ len ih =>
    rw [List.range'_succ, List.map_cons, List.sum_cons, ih,
      ← Finset.add_sum_Ioo_eq_sum_Ico (by omega : lo < lo + (len + 1))]
    congr 1
    refine sum_congr ?_ fun _ _ => rfl
    ext x; simp only [mem_Ico, mem_Ioo]; omega

theorem sum_flatMap {α : Type} {M : Type} [AddCommMonoid M] (l : List Nat) (f : Nat → List α)
    (g : α → M) : ((l.flatMap f).map g).sum = (l.map fun r => ((f r).map g).sum).sum := by
  induction l with
  | nil => rfl
  | cons a l ih =>
    rw [List.flatMap_cons, List.map_append, List.sum_append, ih, List.map_cons, List.sum_cons]

theorem sum_range_list {M : Type} [AddCommMonoid M] {n : Nat} {f : Nat → M} :
    ∑ i ∈ range n, f i = ((List.range n).map f).sum := by
  induction n with
  | zero => simp
  | succ n ih => rw [sum_range_succ, ih, List.range_succ, List.map_append, List.sum_append]; simp

theorem counts_sat {A : SpMat K} {n : Nat} (h : A.WF n) {ops : List (Nat × Nat)}
    (hops : transposeCountOps A = Res.ok ops) {o : List Nat} (ho : IsSchedule o ops.length) :
    (runAtomics o ops (List.replicate A.rowMap.length 0)).Sat fun v => v.length = n + 1 ∧
      ∀ c, c < n → atN v c = A.colCount c := by
  rw [transposeCountOps_eq h] at hops
  cases hops
  refine (runAtomics_sat ho ?_).mono ?_
  · intro op hop
    rw [List.mem_flatMap] at hop
    obtain ⟨r, hr, hop⟩ := hop
    rw [List.mem_flatMap] at hop
    obtain ⟨e, he, hop⟩ := hop
    rw [List.mem_singleton] at hop
    subst hop
    have hr := List.mem_range.1 hr
    rw [List.mem_range'_1] at he
    have := (h.row_le hr).2
    have := h.cols_lt e (by omega)
    rw [List.length_replicate, h.rowMap_length]
    show atN A.cols e < n + 1
    omega
  · rintro v ⟨hl, hv⟩
    refine ⟨by rw [hl, List.length_replicate, h.rowMap_length], fun c hc => ?_⟩
    have h0 : at0 (List.replicate A.rowMap.length 0) c = 0 := by
      rw [at0_eq (by rw [List.length_replicate, h.rowMap_length]; omega)]; simp
    rw [atN, hv c, h0, zero_add, sum_flatMap, SpMat.colCount, ← h.sum_rows,
      ← sum_range_list]
    refine sum_congr rfl fun r hr => ?_
    have := (h.row_le (mem_range.1 hr)).1
    rw [sum_flatMap]
    simp only [List.map_cons, List.map_nil, List.sum_cons, List.sum_nil, add_zero]
    rw [sum_range'_map, Nat.add_sub_cancel' this]

/-- `parallel_scan` computes the exclusive prefix sums. -/
theorem scan_sat (n : Nat) (v : List Nat) (hl : v.length = n + 1) :
    (scan n v).Sat fun s => s.1.length = n + 1 ∧
      (∀ c, c < n + 1 → atN s.1 c = ∑ i ∈ range c, atN v i) ∧ s.2 = ∑ i ∈ range (n + 1), atN v i := by
  unfold scan
  refine (forRange_inv (fun k (s : List Nat × Nat) => s.1.length = n + 1 ∧
    (∀ c, c < k → atN s.1 c = ∑ i ∈ range c, atN v i) ∧
    (∀ c, k ≤ c → atN s.1 c = atN v c) ∧ s.2 = ∑ i ∈ range k, atN v i) (Nat.zero_le _)
    ⟨hl, fun c hc => absurd hc (Nat.not_lt_zero c), fun c _ => rfl, by simp⟩ ?_).mono ?_
  · rintro k ⟨rm, u⟩ - hk ⟨h1, h2, h3, h4⟩
    simp only at h1 h2 h3 h4
    unfold scanStep
    rw [rd_atN (by simp only; omega), Res.ok_bind, wr_eq (by simp only; omega), Res.ok_bind]
    refine Res.Sat.ok ⟨by simpa using h1, ?_, ?_, ?_⟩
    · intro c hc
      show atN (rm.set k u) c = _
      rw [atN_set (by omega)]
      by_cases hck : c = k
      · rw [if_pos hck, hck, h4]
      · rw [if_neg hck, h2 c (by omega)]
    · intro c hc
      show atN (rm.set k u) c = _
      rw [atN_set (by omega), if_neg (by omega), h3 c (by omega)]
    · show u + atN rm k = _
      rw [h4, h3 k (Nat.le_refl k), sum_range_succ]
  · rintro s ⟨h1, h2, _, h4⟩
    exact ⟨h1, h2, h4⟩

end Plato
