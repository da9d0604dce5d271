import Verif.Blas.Model

/-!
# Vector kernels (C41, C42)
-/

namespace Plato

open Finset

variable {K : Type}

/-! ## Rules -/

/-- A parallel loop whose iteration `i` replaces entry `i` by a function of it. -/
theorem parFor_map [Zero K] {n : Nat} {order : List Nat} (hs : IsSchedule order n)
    {body : Nat → List K → Res (List K)} (g : Nat → K → K)
    (hb : ∀ i y, i < n → y.length = n → body i y = Res.ok (y.set i (g i (at0 y i))))
    {y0 : List K} (hy : y0.length = n) :
    (parFor order y0 body).Sat fun y => y.length = n ∧ ∀ i, i < n → at0 y i = g i (at0 y0 i) := by
  refine (parFor_sched hs (fun D y => y.length = n ∧
    ∀ i, i < n → at0 y i = if i ∈ D then g i (at0 y0 i) else at0 y0 i) ⟨hy, by simp⟩ ?_).mono ?_
  · rintro D i y hi hD - ⟨hl, h⟩
    rw [hb i y hi hl, Res.sat_ok]
    refine ⟨by simpa using hl, fun j hj => ?_⟩
    rw [at0_set (by omega)]
    by_cases hji : j = i
    · subst hji
      simp [h j hj, hD]
    · simp [hji, h j hj]
  · rintro y ⟨hl, h⟩
    exact ⟨hl, fun i hi => by rw [h i hi, if_pos (mem_range.2 hi)]⟩

theorem part_eq {op : K → K → K} {f : Nat → K} {body : Nat → K → Res K} :
    ∀ (c : List Nat) (s : K), (∀ i ∈ c, ∀ s, body i s = Res.ok (op s (f i))) →
      parReduce.part body c s = Res.ok (c.foldl (fun s i => op s (f i)) s) := by
  intro c
  induction c with
  | nil => intro s _; rfl
  | cons i c ih =>
    intro s h
    rw [parReduce.part, h i (by simp)]
    exact ih _ fun j hj => h j (by simp [hj])

theorem all_eq {op : K → K → K} {f : Nat → K} {body : Nat → K → Res K} {z : K} :
    ∀ (cs : List (List Nat)) (s : K), (∀ i ∈ cs.flatten, ∀ s, body i s = Res.ok (op s (f i))) →
      parReduce.all z op body cs s =
        Res.ok (cs.foldl (fun s c => op s (c.foldl (fun s i => op s (f i)) z)) s) := by
  intro cs
  induction cs with
  | nil => intro s _; rfl
  | cons c cs ih =>
    intro s h
    rw [parReduce.all, part_eq c z fun i hi => h i (by simp [hi])]
    exact ih _ fun j hj => h j (by
      rw [List.flatten_cons]; exact List.mem_append_right _ hj)

theorem foldl_add_map [AddCommMonoid K] (f : Nat → K) (c : List Nat) (s : K) :
    c.foldl (fun s i => s + f i) s = s + (c.map f).sum := by
  induction c generalizing s with
  | nil => simp
  | cons i c ih => simp [ih, add_assoc]

/-- A parallel sum is the sum, however the range is cut and ordered. -/
theorem parReduce_sum [AddCommMonoid K] {chunks : List (List Nat)} {n : Nat}
    (hp : IsPartition chunks n) {body : Nat → K → Res K} {f : Nat → K}
    (hb : ∀ i s, i < n → body i s = Res.ok (s + f i)) :
    parReduce chunks 0 (· + ·) body = Res.ok (∑ i ∈ range n, f i) := by
  have hmem : ∀ i ∈ chunks.flatten, i < n := fun i hi => List.mem_range.1 (hp.mem_iff.1 hi)
  rw [parReduce, all_eq (f := f) chunks 0 fun i hi s => hb i s (hmem i hi)]
  congr 1
  have h1 : ∀ (cs : List (List Nat)) (s : K),
      cs.foldl (fun s c => s + (c.foldl (fun s i => s + f i) 0)) s = s + (cs.flatten.map f).sum := by
    intro cs
    induction cs with
    | nil => intro s; simp
    | cons c cs ih =>
      intro s
      rw [List.foldl_cons, ih, foldl_add_map]
      simp [add_assoc]
  rw [h1, zero_add, (hp.map f).sum_eq]
  rfl

/-- A parallel maximum is the maximum, however the range is cut and ordered. -/
theorem parReduce_max {L : Type} [LinearOrder L] {chunks : List (List Nat)} {n : Nat}
    (hp : IsPartition chunks n) {body : Nat → L → Res L} {f : Nat → L} {z : L}
    (hb : ∀ i s, i < n → body i s = Res.ok (max s (f i))) :
    (parReduce chunks z max body).Sat fun m =>
      z ≤ m ∧ (∀ i, i < n → f i ≤ m) ∧ (m = z ∨ ∃ i, i < n ∧ m = f i) := by
  have hmem : ∀ i, i ∈ chunks.flatten ↔ i < n := fun i => hp.mem_iff.trans List.mem_range
  rw [parReduce, all_eq (f := f) chunks z fun i hi s => hb i s ((hmem i).1 hi), Res.sat_ok]
  have h0 : ∀ (c : List Nat) (s : L),
      s ≤ c.foldl (fun s i => max s (f i)) s ∧ (∀ i ∈ c, f i ≤ c.foldl (fun s i => max s (f i)) s) ∧
      (c.foldl (fun s i => max s (f i)) s = s ∨
        ∃ i ∈ c, c.foldl (fun s i => max s (f i)) s = f i) := by
    intro c
    induction c with
    | nil => intro s; simp
    | cons i c ih =>
      intro s
      obtain ⟨a1, a2, a3⟩ := ih (max s (f i))
      rw [List.foldl_cons]
      refine ⟨(le_max_left _ _).trans a1, ?_, ?_⟩
      · intro j hj
        rcases List.mem_cons.1 hj with rfl | hj
        · exact (le_max_right _ _).trans a1
        · exact a2 j hj
      · rcases a3 with h | ⟨j, hj, h⟩
        · rcases max_choice s (f i) with e | e
          · exact Or.inl (h.trans e)
          · exact Or.inr ⟨i, by simp, h.trans e⟩
        · exact Or.inr ⟨j, by simp [hj], h⟩
  have h1 : ∀ (cs : List (List Nat)) (s : L), z ≤ s →
      let m := cs.foldl (fun s c => max s (c.foldl (fun s i => max s (f i)) z)) s
      s ≤ m ∧ (∀ i ∈ cs.flatten, f i ≤ m) ∧ (m = s ∨ ∃ i ∈ cs.flatten, m = f i) := by
    intro cs
    induction cs with
    | nil => intro s _; simp
    | cons c cs ih =>
      intro s hz m
      obtain ⟨b1, b2, b3⟩ := h0 c z
      set p := c.foldl (fun s i => max s (f i)) z with hpdef
      obtain ⟨a1, a2, a3⟩ := ih (max s p) (hz.trans (le_max_left _ _))
      refine ⟨(le_max_left _ _).trans a1, ?_, ?_⟩
      · intro j hj
        rw [List.flatten_cons, List.mem_append] at hj
        rcases hj with hj | hj
        · exact (b2 j hj).trans ((le_max_right _ _).trans a1)
        · exact a2 j hj
      · rcases a3 with h | ⟨j, hj, h⟩
        · rcases max_choice s p with e | e
          · exact Or.inl (h.trans e)
          · rcases b3 with e' | ⟨j, hj, e'⟩
            · left
              have : p ≤ s := e' ▸ hz
              exact h.trans (max_eq_left this)
            · exact Or.inr ⟨j, by simp [hj], h.trans (e.trans e')⟩
        · exact Or.inr ⟨j, by rw [List.flatten_cons]; exact List.mem_append_right _ hj, h⟩
  obtain ⟨a1, a2, a3⟩ := h1 chunks z le_rfl
  refine ⟨a1, fun i hi => a2 i ((hmem i).2 hi), ?_⟩
  rcases a3 with h | ⟨i, hi, h⟩
  · exact Or.inl h
  · exact Or.inr ⟨i, (hmem i).1 hi, h⟩

/-! ## Kernels -/

namespace blas1
variable [Field K]

/-- **C41** `dot`: the scalar product, or an exception when the lengths differ. -/
theorem C41_dot {chunks : List (List Nat)} {x y : List K} (hp : IsPartition chunks x.length) :
    dot chunks x y = if y.length = x.length then Res.ok (∑ i ∈ range x.length, at0 x i * at0 y i)
      else throwErr "BLAS1 DOT: DIMENSION MISMATCH" := by
  unfold dot
  by_cases h : y.length = x.length
  · rw [if_neg (by simpa using h), if_pos h]
    refine parReduce_sum hp fun i s hi => ?_
    simp [rd_at0 hi, rd_at0 (show i < y.length by omega)]
  · rw [if_pos h, if_neg h]

/-- **C41** `norm`: the Euclidean length, or an exception for an empty vector. -/
theorem C41_norm {chunks : List (List Nat)} {x : List ℝ} (hp : IsPartition chunks x.length) :
    norm chunks x = if x.length = 0 then throwErr "BLAS 1 NORM: INPUT VECTOR IS EMPTY"
      else Res.ok (Real.sqrt (∑ i ∈ range x.length, at0 x i ^ 2)) := by
  unfold norm
  by_cases h : x.length = 0
  · rw [if_pos (by omega), if_pos h]
  · rw [if_neg (by omega), if_neg h, C41_dot hp, if_pos rfl]
    simp [sq]

/-- **C41** `fill`. -/
theorem C41_fill {order : List Nat} {fin : K → Bool} {a : K} {x : List K}
    (hs : IsSchedule order x.length) (hx : 0 < x.length) (ha : fin a = true) :
    fill order fin a x = Res.ok (List.replicate x.length a) := by
  unfold fill
  rw [if_neg (by omega), if_neg (by simp [ha])]
  obtain ⟨y, hy, hl, h⟩ := parFor_map hs (fun _ _ => a)
    (body := fun i x => wr x i a) (fun i y hi hl => wr_eq (by omega)) (y0 := x) rfl
  rw [hy]
  congr 1
  refine ext_at0 (by simpa using hl) fun i hi => ?_
  rw [h i (by omega), at0_eq (by simp; omega)]
  simp

/-- **C41** `copy`: the result is the input; lengths that differ are rejected. -/
theorem C41_copy {order : List Nat} {x y : List K} (hs : IsSchedule order x.length) :
    copy order x y = if x.length = y.length then Res.ok x
      else throwErr "BLAS 1 COPY: DIMENSION MISMATCH" := by
  unfold copy
  by_cases h : x.length = y.length
  · rw [if_neg (by simpa using h), if_pos h]
    obtain ⟨z, hz, hl, hv⟩ := parFor_map hs (fun i _ => at0 x i)
      (body := fun i y => do let a ← rd x i; wr y i a)
      (fun i z hi hl => by simp [rd_at0 hi, wr_eq (show i < z.length by omega)]) (y0 := y) h.symm
    rw [hz]
    congr 1
    exact ext_at0 hl fun i hi => hv i (by omega)
  · rw [if_pos h, if_neg h]

/-- **C41** `scale`. -/
theorem C41_scale {order : List Nat} {fin : K → Bool} {a : K} {x : List K}
    (hs : IsSchedule order x.length) (hx : 0 < x.length) (ha : fin a = true) :
    (scale order fin a x).Sat fun y =>
      y.length = x.length ∧ ∀ i, i < x.length → at0 y i = a * at0 x i := by
  unfold scale
  rw [if_neg (by simp [ha]), if_neg (by omega)]
  refine (parFor_map hs (fun _ v => v * a) (fun i y hi hl => ?_) rfl).mono fun y h => ⟨h.1, fun i hi => ?_⟩
  · simp [rd_at0 (show i < y.length by omega), wr_eq (show i < y.length by omega)]
  · rw [h.2 i hi, mul_comm]

/-- **C41** `axpy`. -/
theorem C41_axpy {order : List Nat} {a : K} {x y : List K} (hs : IsSchedule order x.length)
    (hl : x.length = y.length) :
    (axpy order a x y).Sat fun z =>
      z.length = x.length ∧ ∀ i, i < x.length → at0 z i = at0 y i + a * at0 x i := by
  unfold axpy
  rw [if_neg (by simpa using hl)]
  refine parFor_map hs (fun i v => v + a * at0 x i) (fun i z hi hz => ?_) hl.symm
  simp [rd_at0 hi, rd_at0 (show i < z.length by omega), wr_eq (show i < z.length by omega)]

/-- **C41** `update`. -/
theorem C41_update {order : List Nat} {fin : K → Bool} {a b : K} {x y : List K}
    (hs : IsSchedule order x.length) (ha : fin a = true) (hb : fin b = true)
    (hl : x.length = y.length) :
    (update order fin a x b y).Sat fun z =>
      z.length = x.length ∧ ∀ i, i < x.length → at0 z i = a * at0 x i + b * at0 y i := by
  unfold update
  rw [if_neg (by simp [ha]), if_neg (by simp [hb]), if_neg (by simpa using hl)]
  refine parFor_map hs (fun i v => a * at0 x i + b * v) (fun i z hi hz => ?_) hl.symm
  simp [rd_at0 hi, rd_at0 (show i < z.length by omega), wr_eq (show i < z.length by omega)]

omit [Field K] in
/-- **C41** malformed vector arguments are rejected before anything is written. -/
theorem C41_rejected [Field K] {order : List Nat} {fin : K → Bool} {a b : K} {x y : List K} :
    (x.length ≠ y.length → (∃ m, axpy order a x y = throwErr m) ∧
      (∃ m, update order fin a x b y = throwErr m)) ∧
    (x = [] → (∃ m, fill order fin a x = throwErr m) ∧ (∃ m, scale order fin a x = throwErr m) ∧
      ∀ chunks, ∃ m, localSum chunks x = throwErr m) ∧
    (fin a = false → (∃ m, fill order fin a x = throwErr m) ∧
      (∃ m, scale order fin a x = throwErr m) ∧ (∃ m, update order fin a x b y = throwErr m) ∧
      (∃ m, update order fin b x a y = throwErr m)) := by
  refine ⟨fun h => ⟨⟨_, by rw [axpy, if_pos h]⟩, ?_⟩, ?_, ?_⟩
  · unfold update
    split
    · exact ⟨_, rfl⟩
    · split
      · exact ⟨_, rfl⟩
      · exact ⟨_, rfl⟩
  · rintro rfl
    refine ⟨⟨_, rfl⟩, ?_, fun _ => ⟨_, rfl⟩⟩
    unfold scale
    split <;> exact ⟨_, rfl⟩
  · intro h
    refine ⟨?_, ⟨_, by rw [scale, if_pos h]⟩, ⟨_, by rw [update, if_pos h]⟩, ?_⟩
    · unfold fill
      split
      · exact ⟨_, rfl⟩
      · exact ⟨_, rfl⟩
    · unfold update
      split
      · exact ⟨_, rfl⟩
      · exact ⟨_, rfl⟩

/-- **C41** `local_sum`. -/
theorem C41_localSum {chunks : List (List Nat)} {x : List K} (hp : IsPartition chunks x.length)
    (hx : 0 < x.length) : localSum chunks x = Res.ok (∑ i ∈ range x.length, at0 x i) := by
  unfold localSum
  rw [if_neg (by omega)]
  exact parReduce_sum hp fun i s hi => by simp [rd_at0 hi]

/-- **C41** `max`: the largest entry, for every way the reduction is cut and joined. -/
theorem C41_max [LinearOrder K] {chunks : List (List Nat)} {lowest : K} {x : List K}
    (hp : IsPartition chunks x.length) (hx : 0 < x.length)
    (hlow : ∀ i, i < x.length → lowest ≤ at0 x i) :
    (blas1.max chunks lowest x).Sat fun m =>
      (∀ i, i < x.length → at0 x i ≤ m) ∧ ∃ i, i < x.length ∧ m = at0 x i := by
  unfold blas1.max
  rw [if_neg (by omega)]
  refine (parReduce_max (f := at0 x) hp fun i s hi => by simp [rd_at0 hi]).mono ?_
  rintro m ⟨h1, h2, h3⟩
  refine ⟨h2, ?_⟩
  rcases h3 with h | h
  · exact ⟨0, hx, le_antisymm (h ▸ hlow 0 hx) (h2 0 hx)⟩
  · exact h

/-- **C41** `min`: the smallest entry, for every way the reduction is cut and joined. -/
theorem C41_min [LinearOrder K] {chunks : List (List Nat)} {highest : K} {x : List K}
    (hp : IsPartition chunks x.length) (hx : 0 < x.length)
    (hhigh : ∀ i, i < x.length → at0 x i ≤ highest) :
    (blas1.min chunks highest x).Sat fun m =>
      (∀ i, i < x.length → m ≤ at0 x i) ∧ ∃ i, i < x.length ∧ m = at0 x i := by
  unfold blas1.min
  rw [if_neg (by omega)]
  refine (parReduce_max (L := Kᵒᵈ) (f := at0 x) (z := highest) hp
    fun i s hi => by simp [rd_at0 hi]; rfl).mono ?_
  rintro m ⟨h1, h2, h3⟩
  refine ⟨h2, ?_⟩
  rcases h3 with h | h
  · exact ⟨0, hx, le_antisymm (h2 0 hx) (h ▸ hhigh 0 hx)⟩
  · exact h

/-- **C41** `extract`: entry `i` of the output is entry `i*stride + offset` of the input, provided
the input is long enough. -/
theorem C41_extract {order : List Nat} {stride offset : Nat} {x y : List K}
    (hs : IsSchedule order y.length) (hy : 0 < y.length)
    (hx : (y.length - 1) * stride + offset < x.length) :
    (extract order stride offset x y).Sat fun z => z.length = y.length ∧
      ∀ i, i < y.length → at0 z i = at0 x (i * stride + offset) := by
  unfold extract
  rw [if_neg (by omega), if_neg (by omega)]
  refine parFor_map hs (fun i _ => at0 x (i * stride + offset)) (fun i z hi hz => ?_) rfl
  have : i * stride ≤ (y.length - 1) * stride := Nat.mul_le_mul_right _ (by omega)
  simp [rd_at0 (show i * stride + offset < x.length by omega), wr_eq (show i < z.length by omega)]

/-! ## Indexed fill -/

theorem parFor_ub {σ : Type} {body : Nat → σ → Res σ} :
    ∀ (order : List Nat) (s : σ), (∃ i ∈ order, ∀ s, body i s = Res.ub) →
      (∀ i s m, body i s ≠ Res.err m) → parFor order s body = Res.ub := by
  intro order
  induction order with
  | nil => rintro s ⟨i, hi, _⟩; cases hi
  | cons i is ih =>
    intro s h hne
    rw [parFor]
    rcases hb : body i s with s' | m | _
    · refine ih s' ?_ hne
      obtain ⟨j, hj, hub⟩ := h
      rcases List.mem_cons.1 hj with rfl | hj
      · rw [hub] at hb; cases hb
      · exact ⟨j, hj, hub⟩
    · exact absurd hb (hne _ _ _)
    · rfl

/-- **C42**, what holds: when the list of ordinals is exactly as long as the output, contains no
ordinal twice and stays inside the output, entry `ordinals(i)` is `multiplier*values(i)`.  Missing
with respect to the full claim: shorter lists, for which the function reads outside its inputs
(`C42_false`). -/
theorem C42_fill_partial {order : List Nat} {fin : K → Bool} {m : K} {ords : List Nat}
    {vals out : List K} (hs : IsSchedule order out.length) (ho : 0 < out.length)
    (hm : fin m = true) (hov : ords.length = vals.length) (hlen : ords.length = out.length)
    (hnd : ords.Nodup) (hlt : ∀ o ∈ ords, o < out.length) :
    (fillIndexed order fin m ords vals out).Sat fun z => z.length = out.length ∧
      ∀ i, i < ords.length → ∀ o, ords[i]? = some o → at0 z o = m * at0 vals i := by
  unfold fillIndexed
  rw [if_neg (by omega), if_neg (by omega), if_neg (by simp [hm]), if_neg (by simpa using hov)]
  refine (parFor_posts hs (fun z => z.length = out.length)
    (fun i z => ∀ o, ords[i]? = some o → at0 z o = m * at0 vals i) rfl ?_).mono ?_
  · intro i z hi hz
    have hi' : i < ords.length := by omega
    have ho' : ords[i] < z.length := by rw [hz]; exact hlt _ (List.getElem_mem hi')
    simp only [rd_eq hi', rd_at0 (show i < vals.length by omega), Res.ok_bind, wr_eq ho',
      Res.sat_ok]
    refine ⟨by simpa using hz, ?_, ?_⟩
    · intro o h
      rw [List.getElem?_eq_getElem hi'] at h
      cases h
      rw [at0_set ho', if_pos rfl]
    · intro j hj hji h o hjo
      have hj' : j < ords.length := by omega
      rw [List.getElem?_eq_getElem hj'] at hjo
      cases hjo
      rw [at0_set ho', if_neg, h _ (List.getElem?_eq_getElem hj')]
      intro e
      exact hji ((List.Nodup.getElem_inj_iff hnd).1 e)
  · rintro z ⟨h1, h2⟩
    exact ⟨h1, fun i hi => h2 i (by omega)⟩

/-- **C42** is false: whenever fewer ordinals than output entries are given the function reads
outside the list of ordinals. -/
theorem C42_false {order : List Nat} {fin : K → Bool} {m : K} {ords : List Nat}
    {vals out : List K} (hs : IsSchedule order out.length) (hv : 0 < vals.length)
    (hm : fin m = true) (hov : ords.length = vals.length) (hlen : ords.length < out.length) :
    fillIndexed order fin m ords vals out = Res.ub := by
  unfold fillIndexed
  rw [if_neg (by omega), if_neg (by omega), if_neg (by simp [hm]), if_neg (by simpa using hov)]
  refine parFor_ub order out ⟨ords.length, ?_, ?_⟩ ?_
  · exact hs.mem_iff.2 (List.mem_range.2 hlen)
  · intro s
    rw [rd_ub (Nat.le_refl _)]; rfl
  · intro i s msg
    unfold rd wr
    split <;> (try split) <;> simp <;> (try split) <;> simp

/-- Concrete instance: one Dirichlet value for a vector of three entries. -/
example : fillIndexed (List.range 3) (fun _ => true) (2 : ℚ) [1] [5] [0, 0, 0] = Res.ub :=
  C42_false (IsSchedule.range 3) (by decide) rfl rfl (by decide)

/-- The hypotheses of `C42_fill_partial` are met. -/
example : (fillIndexed [2, 0, 1] (fun _ => true) (2 : ℚ) [2, 0, 1] [5, 6, 7] [0, 0, 0]).Sat
    fun z => z.length = 3 ∧ ∀ i, i < 3 → ∀ o, [2, 0, 1][i]? = some o →
      at0 z o = 2 * at0 [5, 6, 7] i :=
  C42_fill_partial (by unfold IsSchedule; decide) (by decide) rfl rfl rfl (by decide) (by decide)

/-- A partition that is not the trivial one. -/
example : dot [[2], [], [0, 1]] [(1 : ℚ), 2, 3] [4, 5, 6] = Res.ok 32 := by
  rw [C41_dot (by unfold IsPartition; decide)]
  simp [Finset.sum_range_succ, at0]; norm_num

end blas1

end Plato
