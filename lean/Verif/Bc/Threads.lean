import Verif.Bc.Micro

/-!
# The operations the threads of the constraint kernels issue
-/

namespace Plato
open Finset
variable {K : Type}

theorem forRange_append' {α : Type} {body : Nat → List α → Res (List α)} (f : Nat → List α)
    {lo hi : Nat} (acc : List α)
    (h : ∀ j, lo ≤ j → j < hi → ∀ acc, body j acc = Res.ok (acc ++ f j)) :
    forRange lo hi acc body = Res.ok (acc ++ (List.range' lo (hi - lo)).flatMap f) := by
  unfold forRange
  exact forUp_append f _ _ _ (fun j h1 h2 => h j h1 (by omega))

/-- Operations for the stored entry `(k, lc)` of the row of `dof`. -/
def chunk (D dof : Nat) (v : K) (A : Crs K) (x : Nat × Nat) : List (CMicro K) :=
  if D * atN A.cols x.1 + x.2 = dof then [.one (D * D * x.1 + D * (dof % D) + x.2)]
  else [.load (D * D * x.1 + D * (dof % D) + x.2),
      .add (D * D * x.1 + D * (dof % D) + x.2) (D * atN A.cols x.1 + x.2) v,
      .zero (D * D * x.1 + D * (dof % D) + x.2)] ++
    (List.range' (atN A.rowMap (atN A.cols x.1))
      (atN A.rowMap (atN A.cols x.1 + 1) - atN A.rowMap (atN A.cols x.1))).flatMap fun m =>
        if D * atN A.cols m + dof % D = dof then [.zero (D * D * m + D * x.2 + dof % D)] else []

/-- The stored entries of the row of `dof`: positions in the column array and local columns. -/
def rowIdx (D dof : Nat) (A : Crs K) : List (Nat × Nat) :=
  (List.range' (atN A.rowMap (dof / D))
    (atN A.rowMap (dof / D + 1) - atN A.rowMap (dof / D))).flatMap fun k =>
      (List.range D).map fun lc => (k, lc)

/-- Program of the thread of `dof`. -/
def blockProg (D dof : Nat) (v : K) (A : Crs K) : List (CMicro K) :=
  (rowIdx D dof A).flatMap (chunk D dof v A)

theorem blockThread_eq {A : Crs K} {n D dof : Nat} (v : K) (h : A.WF n n) (hd : dof < n * D) :
    blockThread D dof v A = Res.ok (blockProg D dof v A) := by
  have hI : dof / D < n := div_lt_of_lt hd
  obtain ⟨h1, h2⟩ := h.row_le hI
  have hrl := h.rowMap_length
  unfold blockThread blockProg rowIdx
  rw [rd_atN (by omega), rd_atN (by omega)]
  simp only [Res.ok_bind]
  rw [forRange_append' (fun k => (List.range D).flatMap fun lc => chunk D dof v A (k, lc)) []
    fun k hk1 hk2 acc => ?_]
  · rw [List.flatMap_assoc]
    simp [List.flatMap_map]
  · refine forRange_append _ acc fun lc hlc acc => ?_
    unfold entryOps
    rw [rd_atN (by omega)]
    simp only [Res.ok_bind]
    unfold chunk
    by_cases hc : D * atN A.cols k + lc = dof
    · rw [if_pos hc, if_pos hc]; rfl
    · have hcol := h.cols_lt k (by omega)
      obtain ⟨h3, h4⟩ := h.row_le hcol
      rw [if_neg hc, if_neg hc, rd_atN (by omega), rd_atN (by omega)]
      simp only [Res.ok_bind]
      rw [forRange_append' (fun m =>
        if D * atN A.cols m + dof % D = dof then [CMicro.zero (D * D * m + D * lc + dof % D)]
        else []) _ fun m hm1 hm2 acc => ?_]
      · simp
      · unfold clearStep
        rw [rd_atN (by omega)]
        simp only [Res.ok_bind]
        by_cases hm : D * atN A.cols m + dof % D = dof
        · rw [if_pos hm, if_pos hm]; rfl
        · rw [if_neg hm, if_neg hm]; simp

/-- Position `q` stores the matrix entry of row `i` and column `j` (scalar indices, `D` per
node). -/
def Crs.EntryAt (A : Crs K) (D q i j : Nat) : Prop :=
  A.HoldsAt q (i / D) (i % D) (j / D) (j % D)

theorem dof_eq_iff {D J c dof : Nat} (hc : c < D) :
    D * J + c = dof ↔ J = dof / D ∧ c = dof % D := by
  constructor
  · rintro rfl
    exact ⟨(div_block hc).symm, (mod_block hc).symm⟩
  · rintro ⟨rfl, rfl⟩
    exact Nat.div_add_mod _ _

theorem entryAt_unique {A : Crs K} {n D q i j i' j' : Nat} (h : A.WF n n) (hr : A.rpb = D)
    (hc : A.cpb = D) (hi : i < n * D) (hi' : i' < n * D) (h1 : A.EntryAt D q i j)
    (h2 : A.EntryAt D q i' j') : i = i' ∧ j = j' := by
  have hD : 0 < D := hr ▸ h.rpb_pos
  obtain ⟨e1, e2, e3, e4⟩ := holdsAt_unique h.rowMap_mono (div_lt_of_lt hi) (div_lt_of_lt hi')
    (by rw [hr]; exact Nat.mod_lt _ hD) (by rw [hr]; exact Nat.mod_lt _ hD)
    (by rw [hc]; exact Nat.mod_lt _ hD) (by rw [hc]; exact Nat.mod_lt _ hD) h1 h2
  exact ⟨by rw [← Nat.div_add_mod i D, ← Nat.div_add_mod i' D, e1, e2],
    by rw [← Nat.div_add_mod j D, ← Nat.div_add_mod j' D, e3, e4]⟩

theorem mem_rowIdx {A : Crs K} {D dof : Nat} {x : Nat × Nat} :
    x ∈ rowIdx D dof A ↔ atN A.rowMap (dof / D) ≤ x.1 ∧ x.1 < atN A.rowMap (dof / D + 1) ∧
      x.2 < D := by
  unfold rowIdx
  simp only [List.mem_flatMap, List.mem_range'_1, List.mem_map, List.mem_range]
  constructor
  · rintro ⟨k, hk, lc, hlc, rfl⟩
    exact ⟨hk.1, by omega, hlc⟩
  · rintro ⟨h1, h2, h3⟩
    exact ⟨x.1, ⟨h1, by omega⟩, x.2, h3, rfl⟩

theorem rowIdx_nodup {A : Crs K} {D dof : Nat} : (rowIdx D dof A).Nodup := by
  unfold rowIdx
  rw [List.nodup_flatMap]
  refine ⟨?_, ?_⟩
  · intro k _
    exact List.nodup_range.map (fun a b hab => by simpa using hab)
  · refine List.Pairwise.imp ?_ (List.nodup_range' (step := 1))
    intro a b hab
    simp only [Function.onFun, List.disjoint_left, List.mem_map, List.mem_range]
    rintro x ⟨_, _, rfl⟩ ⟨_, _, h⟩
    simp at h
    exact hab h.1.symm

theorem entryAt_of_idx {A : Crs K} {D dof : Nat} {x : Nat × Nat} (hr : A.rpb = D) (hc : A.cpb = D)
    (hx : x ∈ rowIdx D dof A) :
    A.EntryAt D (D * D * x.1 + D * (dof % D) + x.2) dof (D * atN A.cols x.1 + x.2) := by
  obtain ⟨h1, h2, h3⟩ := mem_rowIdx.1 hx
  refine ⟨x.1, h1, h2, ?_, ?_⟩
  · rw [div_block h3]
  · rw [hr, hc, mod_block h3]

theorem idx_of_entryAt {A : Crs K} {D dof q j : Nat} (hD : 0 < D) (hr : A.rpb = D) (hc : A.cpb = D)
    (h : A.EntryAt D q dof j) : ∃ x ∈ rowIdx D dof A, q = D * D * x.1 + D * (dof % D) + x.2 ∧
      D * atN A.cols x.1 + x.2 = j := by
  obtain ⟨k, h1, h2, h3, h4⟩ := h
  have hm := Nat.mod_lt j hD
  refine ⟨(k, j % D), mem_rowIdx.2 ⟨h1, h2, hm⟩, by rw [h4, hr, hc], ?_⟩
  rw [dof_eq_iff hm]
  exact ⟨h3, rfl⟩

section Mem
variable {A : Crs K} {n D dof : Nat} {v : K} (h : A.WF n n) (hr : A.rpb = D) (hc : A.cpb = D)
  (hd : dof < n * D)
include h hr hc hd

theorem one_mem_iff {q : Nat} : CMicro.one q ∈ blockProg D dof v A ↔ A.EntryAt D q dof dof := by
  have hD : 0 < D := hr ▸ h.rpb_pos
  unfold blockProg
  rw [List.mem_flatMap]
  constructor
  · rintro ⟨x, hx, hq⟩
    unfold chunk at hq
    by_cases hcol : D * atN A.cols x.1 + x.2 = dof
    · rw [if_pos hcol] at hq
      simp only [List.mem_singleton, CMicro.one.injEq] at hq
      have := entryAt_of_idx hr hc hx
      rwa [hcol, ← hq] at this
    · rw [if_neg hcol] at hq
      simp only [List.mem_append, List.mem_cons, List.not_mem_nil, List.mem_flatMap] at hq
      rcases hq with (h | h | h | h) | ⟨m, -, h⟩
      · cases h
      · cases h
      · cases h
      · exact h.elim
      · split at h <;> simp at h
  · intro he
    obtain ⟨x, hx, hq, hcol⟩ := idx_of_entryAt hD hr hc he
    refine ⟨x, hx, ?_⟩
    unfold chunk
    rw [if_pos hcol, hq]
    simp

theorem load_mem_iff {q : Nat} : CMicro.load q ∈ blockProg D dof v A ↔
    ∃ j, j ≠ dof ∧ A.EntryAt D q dof j := by
  have hD : 0 < D := hr ▸ h.rpb_pos
  unfold blockProg
  rw [List.mem_flatMap]
  constructor
  · rintro ⟨x, hx, hq⟩
    unfold chunk at hq
    by_cases hcol : D * atN A.cols x.1 + x.2 = dof
    · rw [if_pos hcol] at hq
      simp at hq
    · rw [if_neg hcol] at hq
      refine ⟨_, hcol, ?_⟩
      simp only [List.mem_append, List.mem_cons, List.not_mem_nil, List.mem_flatMap] at hq
      rcases hq with (h | h | h | h) | ⟨m, -, h⟩
      · cases h; exact entryAt_of_idx hr hc hx
      · cases h
      · cases h
      · exact h.elim
      · split at h <;> simp at h
  · rintro ⟨j, hj, he⟩
    obtain ⟨x, hx, hq, hcol⟩ := idx_of_entryAt hD hr hc he
    refine ⟨x, hx, ?_⟩
    unfold chunk
    rw [if_neg (by rw [hcol]; exact hj), hq]
    simp

theorem add_mem_iff {q c : Nat} {w : K} : CMicro.add q c w ∈ blockProg D dof v A ↔
    c ≠ dof ∧ A.EntryAt D q dof c ∧ w = v := by
  have hD : 0 < D := hr ▸ h.rpb_pos
  unfold blockProg
  rw [List.mem_flatMap]
  constructor
  · rintro ⟨x, hx, hq⟩
    unfold chunk at hq
    by_cases hcol : D * atN A.cols x.1 + x.2 = dof
    · rw [if_pos hcol] at hq
      simp at hq
    · rw [if_neg hcol] at hq
      simp only [List.mem_append, List.mem_cons, List.not_mem_nil, List.mem_flatMap] at hq
      rcases hq with (h | h | h | h) | ⟨m, -, h⟩
      · cases h
      · cases h; exact ⟨hcol, entryAt_of_idx hr hc hx, rfl⟩
      · cases h
      · exact h.elim
      · split at h <;> simp at h
  · rintro ⟨hj, he, rfl⟩
    obtain ⟨x, hx, hq, hcol⟩ := idx_of_entryAt hD hr hc he
    refine ⟨x, hx, ?_⟩
    unfold chunk
    rw [if_neg (by rw [hcol]; exact hj), hq, hcol]
    simp

theorem zero_chunk_iff {q : Nat} {x : Nat × Nat} (hx : x ∈ rowIdx D dof A) :
    CMicro.zero q ∈ chunk D dof v A x ↔ D * atN A.cols x.1 + x.2 ≠ dof ∧
      (q = D * D * x.1 + D * (dof % D) + x.2 ∨
        A.EntryAt D q (D * atN A.cols x.1 + x.2) dof) := by
  have hD : 0 < D := hr ▸ h.rpb_pos
  obtain ⟨x1, x2, x3⟩ := mem_rowIdx.1 hx
  have hm := Nat.mod_lt dof hD
  unfold chunk
  by_cases hcol : D * atN A.cols x.1 + x.2 = dof
  · rw [if_pos hcol]
    simp [hcol]
  · rw [if_neg hcol]
    simp only [List.mem_append, List.mem_cons, List.not_mem_nil, List.mem_flatMap, reduceCtorEq,
      CMicro.zero.injEq, false_or, or_false, ne_eq, hcol, not_false_eq_true, true_and]
    refine or_congr_right ?_
    constructor
    · rintro ⟨m, hm1, hm2⟩
      rw [List.mem_range'_1] at hm1
      by_cases hdm : D * atN A.cols m + dof % D = dof
      · rw [if_pos hdm] at hm2
        simp only [List.mem_singleton, CMicro.zero.injEq] at hm2
        refine ⟨m, ?_, ?_, ?_, ?_⟩
        · rw [div_block x3]; exact hm1.1
        · rw [div_block x3]; omega
        · exact ((dof_eq_iff hm).1 hdm).1
        · rw [hr, hc, mod_block x3]; exact hm2
      · rw [if_neg hdm] at hm2; simp at hm2
    · rintro ⟨m, m1, m2, m3, m4⟩
      rw [div_block x3] at m1 m2
      rw [hr, hc, mod_block x3] at m4
      refine ⟨m, by rw [List.mem_range'_1]; omega, ?_⟩
      rw [if_pos ((dof_eq_iff hm).2 ⟨m3, rfl⟩)]
      simpa using m4

theorem zero_mem_iff {q : Nat} : CMicro.zero q ∈ blockProg D dof v A ↔
    ∃ j, j ≠ dof ∧ (A.EntryAt D q dof j ∨ ((∃ q', A.EntryAt D q' dof j) ∧ A.EntryAt D q j dof)) := by
  have hD : 0 < D := hr ▸ h.rpb_pos
  unfold blockProg
  rw [List.mem_flatMap]
  constructor
  · rintro ⟨x, hx, hq⟩
    obtain ⟨h1, h2⟩ := (zero_chunk_iff h hr hc hd hx).1 hq
    have he := entryAt_of_idx hr hc hx
    refine ⟨_, h1, ?_⟩
    rcases h2 with rfl | h2
    · exact Or.inl he
    · exact Or.inr ⟨⟨_, he⟩, h2⟩
  · rintro ⟨j, hj, he | ⟨⟨q', he⟩, hq⟩⟩
    · obtain ⟨x, hx, hq, hcol⟩ := idx_of_entryAt hD hr hc he
      exact ⟨x, hx, (zero_chunk_iff h hr hc hd hx).2 ⟨by rw [hcol]; exact hj, Or.inl hq⟩⟩
    · obtain ⟨x, hx, -, hcol⟩ := idx_of_entryAt hD hr hc he
      exact ⟨x, hx, (zero_chunk_iff h hr hc hd hx).2
        ⟨by rw [hcol]; exact hj, Or.inr (by rw [hcol]; exact hq)⟩⟩

theorem blockProg_ordered : Ordered [] (blockProg D dof v A) := by
  have hD : 0 < D := hr ▸ h.rpb_pos
  have zeros : ∀ (l : List (CMicro K)) (seen : List (CMicro K)),
      (∀ op ∈ l, ∃ q, op = CMicro.zero q) → Ordered seen l := by
    intro l
    induction l with
    | nil => intro _ _; trivial
    | cons op l ih =>
      intro seen hl
      obtain ⟨q, rfl⟩ := hl op (by simp)
      exact ⟨trivial, ih _ (fun o ho => hl o (by simp [ho]))⟩
  have key : ∀ (L : List (Nat × Nat)) (seen : List (CMicro K)), L.Nodup →
      (∀ x ∈ L, x ∈ rowIdx D dof A) →
      (∀ x ∈ L, CMicro.zero (D * D * x.1 + D * (dof % D) + x.2) ∉ seen) →
      Ordered seen (L.flatMap (chunk D dof v A)) := by
    intro L
    induction L with
    | nil => intro _ _ _ _; trivial
    | cons x L ih =>
      intro seen hnd hsub hseen
      rw [List.flatMap_cons, ordered_append]
      rw [List.nodup_cons] at hnd
      refine ⟨?_, ih _ hnd.2 (fun y hy => hsub y (by simp [hy])) ?_⟩
      · unfold chunk
        by_cases hcol : D * atN A.cols x.1 + x.2 = dof
        · rw [if_pos hcol]; exact ⟨trivial, trivial⟩
        · rw [if_neg hcol, ordered_append]
          refine ⟨⟨hseen x (by simp), ?_, trivial, trivial⟩, zeros _ _ ?_⟩
          · show CMicro.load _ ∈ _
            simp
          · intro op hop
            rw [List.mem_flatMap] at hop
            obtain ⟨m, -, hm⟩ := hop
            split at hm
            · simp at hm; exact ⟨_, hm⟩
            · simp at hm
      · intro y hy hmem
        rcases List.mem_append.1 hmem with hmem | hmem
        · exact hseen y (by simp [hy]) hmem
        · have hy' := hsub y (by simp [hy])
          have hx' := hsub x (by simp)
          obtain ⟨h1, h2⟩ := (zero_chunk_iff h hr hc hd hx').1 hmem
          have ey := entryAt_of_idx hr hc hy'
          obtain ⟨y1, y2, y3⟩ := mem_rowIdx.1 hy'
          obtain ⟨x1, x2, x3⟩ := mem_rowIdx.1 hx'
          rcases h2 with h2 | h2
          · apply hnd.1
            have hm := Nat.mod_lt dof hD
            have b1 : D * (dof % D) + y.2 < D * D := block_lt y3 hm
            have b2 : D * (dof % D) + x.2 < D * D := block_lt x3 hm
            have e1 := div_block (q := y.1) b1
            have e2 := div_block (q := x.1) b2
            rw [← Nat.add_assoc, h2, Nat.add_assoc, e2] at e1
            have : x = y := by
              refine Prod.ext e1 ?_
              rw [e1] at h2
              omega
            rw [this]; exact hy
          · have hcolx := h.cols_lt x.1 (by
              have := (h.row_le (div_lt_of_lt hd)).2
              omega)
            exact h1 (entryAt_unique h hr hc (block_lt x3 hcolx) hd h2 ey).1
  exact key _ [] rowIdx_nodup (fun x hx => hx) (by simp)

end Mem

/-- Sum of the right hand side contributions of one thread to entry `c ≠ dof`. -/
theorem blockProg_sum [CommRing K] {A : Crs K} {n D dof c : Nat} {v : K} (h : A.WF n n)
    (hr : A.rpb = D) (hcp : A.cpb = D) (hc : c ≠ dof) :
    ((blockProg D dof v A).map (addTerm A.vals c)).sum = -(A.dense dof c) * v := by
  have hD : 0 < D := hr ▸ h.rpb_pos
  have hchunk : ∀ x : Nat × Nat, ((chunk D dof v A x).map (addTerm A.vals c)).sum =
      if D * atN A.cols x.1 + x.2 = c then
        -at0 A.vals (D * D * x.1 + D * (dof % D) + x.2) * v else 0 := by
    intro x
    unfold chunk
    by_cases hcol : D * atN A.cols x.1 + x.2 = dof
    · rw [if_pos hcol, if_neg (by rw [hcol]; exact Ne.symm hc)]
      simp [addTerm]
    · rw [if_neg hcol, List.map_append, List.sum_append]
      have hz : ∀ l : List (CMicro K), (∀ op ∈ l, ∃ q, op = CMicro.zero q) →
          (l.map (addTerm A.vals c)).sum = 0 := by
        intro l
        induction l with
        | nil => simp
        | cons op l ih =>
          intro hl
          obtain ⟨q, rfl⟩ := hl op (by simp)
          rw [List.map_cons, List.sum_cons, ih (fun o ho => hl o (by simp [ho]))]
          simp [addTerm]
      have hz2 := hz ((List.range' (atN A.rowMap (atN A.cols x.1))
        (atN A.rowMap (atN A.cols x.1 + 1) - atN A.rowMap (atN A.cols x.1))).flatMap fun m =>
          if D * atN A.cols m + dof % D = dof then
            [CMicro.zero (D * D * m + D * x.2 + dof % D)] else []) ?_
      · rw [hz2]
        simp [addTerm]
      · intro op hop
        rw [List.mem_flatMap] at hop
        obtain ⟨m, -, hm⟩ := hop
        split at hm
        · simp at hm; exact ⟨_, hm⟩
        · simp at hm
  have hflat : ∀ L : List (Nat × Nat), ((L.flatMap (chunk D dof v A)).map (addTerm A.vals c)).sum =
      (L.map fun x => if D * atN A.cols x.1 + x.2 = c then
        -at0 A.vals (D * D * x.1 + D * (dof % D) + x.2) * v else 0).sum := by
    intro L
    induction L with
    | nil => simp
    | cons x L ih =>
      rw [List.flatMap_cons, List.map_append, List.sum_append, ih, hchunk, List.map_cons,
        List.sum_cons]
  unfold blockProg
  rw [hflat]
  have hlo : ∀ (lo len : Nat), (((List.range' lo len).flatMap fun k =>
      (List.range D).map fun lc => (k, lc)).map fun x : Nat × Nat =>
        if D * atN A.cols x.1 + x.2 = c then
          -at0 A.vals (D * D * x.1 + D * (dof % D) + x.2) * v else 0).sum =
      ∑ k ∈ Ico lo (lo + len), if atN A.cols k = c / D then
        -at0 A.vals (D * D * k + D * (dof % D) + c % D) * v else 0 := by
    intro lo len
    induction len generalizing lo with
    | zero => simp
    | succ len ih =>
      rw [List.range'_succ, List.flatMap_cons, List.map_append, List.sum_append, ih,
        sum_eq_sum_Ico_succ_bot (show lo < lo + (len + 1) by omega)]
      congr 1
      · rw [List.map_map, show ((fun x : Nat × Nat => if D * atN A.cols x.1 + x.2 = c then
          -at0 A.vals (D * D * x.1 + D * (dof % D) + x.2) * v else 0) ∘ fun lc => (lo, lc)) =
          fun lc => if D * atN A.cols lo + lc = c then
            -at0 A.vals (D * D * lo + D * (dof % D) + lc) * v else 0 from rfl, sum_map_range]
        by_cases hcl : atN A.cols lo = c / D
        · rw [if_pos hcl, sum_eq_single (c % D)]
          · rw [if_pos (by rw [hcl]; exact Nat.div_add_mod _ _)]
          · intro lc hlc hne
            rw [if_neg]
            intro hh
            exact hne ((dof_eq_iff (mem_range.1 hlc)).1 hh).2
          · intro hh; exact absurd (mem_range.2 (Nat.mod_lt c hD)) hh
        · rw [if_neg hcl]
          apply sum_eq_zero
          intro lc hlc
          rw [if_neg]
          intro hh
          exact hcl ((dof_eq_iff (mem_range.1 hlc)).1 hh).1
      · rw [show lo + 1 + len = lo + (len + 1) by omega]
  unfold rowIdx
  rw [hlo]
  unfold Crs.dense
  rw [hr, hcp, neg_mul, sum_mul, ← sum_neg_distrib]
  by_cases hle : atN A.rowMap (dof / D) ≤ atN A.rowMap (dof / D + 1)
  · rw [Nat.add_sub_cancel' hle]
    refine sum_congr rfl fun k _ => ?_
    split
    · rw [neg_mul]
    · simp
  · rw [Ico_eq_empty (by omega), Ico_eq_empty (by omega)]
    simp

end Plato
