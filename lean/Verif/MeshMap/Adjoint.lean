import Mathlib.Algebra.BigOperators.Ring.Finset
import Mathlib.Tactic.IntervalCases
import Mathlib.Tactic.Ring
import Verif.MeshMap.TransposeFill

/-!
# The backward map is the transpose of the forward map (C16)
-/

namespace Plato

open Finset

variable {K : Type}

/-! ## `createTranspose` -/

/-- Dense entries of a transpose. -/
theorem IsTranspose.dense_eq [AddCommMonoid K] {A T : SpMat K} {slot : Nat → Nat}
    (h : IsTranspose A T slot) {n : Nat} (hA : A.WF n) (hT : T.WF n) {i j : Nat} (hi : i < n)
    (hj : j < n) : T.dense i j = A.dense j i := by
  unfold SpMat.dense
  rw [hT.sum_row _ hi, hA.sum_row _ hj, h.cols_length]
  symm
  refine sum_bij (fun k _ => slot k) ?_ ?_ ?_ ?_
  · intro k hk; exact mem_range.2 (h.maps k (mem_range.1 hk))
  · intro k hk k' hk' e; exact h.inj k k' (mem_range.1 hk) (mem_range.1 hk') e
  · intro p hp
    obtain ⟨k, hk, e⟩ := h.surj p (mem_range.1 hp)
    exact ⟨k, mem_range.2 hk, e⟩
  · intro k hk
    have hk := mem_range.1 hk
    have e1 : T.InRow (slot k) i ↔ atN A.cols k = i := by
      constructor
      · intro h1
        exact hT.row_unique (hA.cols_lt k hk) hi (h.row k hk) h1
      · rintro rfl; exact h.row k hk
    have e2 : atN T.cols (slot k) = j ↔ A.InRow k j := by
      obtain ⟨r, hr, hkr⟩ := hA.exists_row hk
      have := h.col k r hk (by rw [hA.numRows_eq]; exact hr) hkr
      rw [this]
      constructor
      · rintro rfl; exact hkr
      · intro h2; exact hA.row_unique hr hj hkr h2
    rw [h.ent k hk]
    simp only [e1, e2]
    split_ifs <;> rfl

/-- **C16**, the transpose: for every matrix with consistent extents, every order of the atomic
increments and every interleaving of the memory operations of the threads, `createTranspose`
returns a matrix with consistent extents which holds every entry exactly once, mirrored. -/
theorem C16_transpose [AddCommMonoid K] {A : SpMat K} {n : Nat} (h : A.WF n) {o : List Nat}
    {sched : List (List TMicro) → List (Nat × TMicro)}
    (ho : ∀ ops, transposeCountOps A = Res.ok ops → IsSchedule o ops.length)
    (hs : ∀ progs, transposeThreads A = Res.ok progs → IsInterleaving progs (sched progs)) :
    (createTranspose o sched A).Sat fun T => T.WF n ∧ (∃ slot, IsTranspose A T slot) ∧
      ∀ i j, i < n → j < n → T.dense i j = A.dense j i := by
  have hth := transposeThreads_eq h
  have hM := (hs _ hth).tRun
  unfold createTranspose
  rw [transposeCountOps_eq h, Res.ok_bind]
  refine (counts_sat h (transposeCountOps_eq h) (ho _ (transposeCountOps_eq h))).bind ?_
  rintro counts ⟨hcl, hc⟩
  rw [h.numRows_eq]
  refine (scan_sat n counts hcl).bind ?_
  rintro ⟨rT, tot⟩ ⟨hrl, hr, -⟩
  have hr' : ∀ c, c < n + 1 → atN rT c = A.colStart c := by
    intro c hcn
    rw [hr c hcn]
    exact sum_congr rfl fun i hi => hc i (by have := mem_range.1 hi; omega)
  rw [hth, Res.ok_bind]
  refine (runTMicro_sat h hM hrl hr' ?_).bind ?_
  · refine ⟨by simp, by simp, by simp [h.ents_length], ?_, ?_, ?_, ?_, ?_⟩
    · intro c hcn
      show at0 _ c = _
      rw [at0_eq (by simpa using hcn)]
      simp
    all_goals simp
  intro s hi
  -- row of every entry
  have hrow : ∀ k, ∃ r, k < A.cols.length → r < n ∧ A.InRow k r := by
    intro k
    by_cases hk : k < A.cols.length
    · obtain ⟨r, hr⟩ := h.exists_row hk; exact ⟨r, fun _ => hr⟩
    · exact ⟨0, fun hk' => absurd hk' hk⟩
  choose row hrow using hrow
  generalize hMdef : sched ((List.range n).map (tprog A)) = M at hM hi
  have hmem : ∀ k, k < A.cols.length → ∀ op ∈ tchunk k, (row k, op) ∈ M := by
    intro k hk op hop
    exact hM.all _ _ (hrow k hk).1 (mem_tprog.2 ⟨k, (hrow k hk).2, hop⟩)
  have hf : ∀ k, k < A.cols.length → (row k, TMicro.fetch k) ∈ M := fun k hk =>
    hmem k hk _ (by simp [tchunk])
  have hlt : ∀ k, k < A.cols.length → s.tmp (row k) k < A.colCount (atN A.cols k) := by
    intro k hk
    have := hi.lt _ _ (hf k hk)
    rw [hi.offs _ (h.cols_lt k hk), hM.fetch_total h] at this
    exact this
  have hmaps : ∀ k, k < A.cols.length →
      A.colStart (atN A.cols k) + s.tmp (row k) k < A.cols.length := by
    intro k hk
    have h1 := hlt k hk
    have h2 := A.colStart_mono (c := atN A.cols k + 1) (d := n) (h.cols_lt k hk)
    rw [A.colStart_succ, h.colStart_last] at h2
    omega
  have hinj : ∀ k k', k < A.cols.length → k' < A.cols.length →
      A.colStart (atN A.cols k) + s.tmp (row k) k = A.colStart (atN A.cols k') + s.tmp (row k') k' →
      k = k' := by
    intro k k' hk hk' e
    obtain ⟨e1, e2⟩ := slot_ne (hlt k hk) (hlt k' hk') e
    exact (hi.inj _ _ _ _ (hf k hk) (hf k' hk') e1 e2).2
  have hsurj : ∀ p, p < A.cols.length → ∃ k, k < A.cols.length ∧
      A.colStart (atN A.cols k) + s.tmp (row k) k = p := by
    intro p hp
    obtain ⟨k, hk, e⟩ := Finset.surj_on_of_inj_on_of_card_le
      (s := range A.cols.length) (t := range A.cols.length)
      (fun k _ => A.colStart (atN A.cols k) + s.tmp (row k) k)
      (fun k hk => mem_range.2 (hmaps k (mem_range.1 hk)))
      (fun k k' hk hk' e => hinj k k' (mem_range.1 hk) (mem_range.1 hk') e) (Nat.le_refl _)
      p (mem_range.2 hp)
    exact ⟨k, mem_range.1 hk, e.symm⟩
  have hcol : ∀ k, k < A.cols.length →
      atN s.colT (A.colStart (atN A.cols k) + s.tmp (row k) k) = row k := fun k hk =>
    (hi.col _ _ (hmem k hk _ (by simp [tchunk]))).2
  have hWF : SpMat.WF (⟨rT, s.colT, s.entT, A.numCols, n⟩ : SpMat K) n := by
    refine ⟨hrl, ?_, ?_, ?_, ?_, ?_, h.numCols_eq, rfl⟩
    · rw [hr' 0 (by omega)]; rfl
    · intro i hi'
      rw [hr' i (by omega), hr' (i + 1) (by omega)]
      exact A.colStart_mono (by omega)
    · rw [hr' n (by omega), h.colStart_last]; exact hi.colT_length.symm
    · rw [hi.entT_length]; exact hi.colT_length.symm
    · intro p hp
      obtain ⟨k, hk, e⟩ := hsurj p (by rw [← hi.colT_length]; exact hp)
      show atN s.colT p < n
      rw [← e, hcol k hk]
      exact (hrow k hk).1
  have hT : IsTranspose A (⟨rT, s.colT, s.entT, A.numCols, n⟩ : SpMat K) (fun k => A.colStart (atN A.cols k) + s.tmp (row k) k) := by
    refine ⟨hi.colT_length, hmaps, hinj, hsurj, ?_, ?_, ?_⟩
    · intro k hk
      have h1 := hlt k hk
      have hc := h.cols_lt k hk
      show atN rT _ ≤ _ ∧ _ < atN rT _
      rw [hr' _ (by omega), hr' _ (by omega), A.colStart_succ]
      omega
    · intro k r hk hr hkr
      rw [h.numRows_eq] at hr
      exact (hcol k hk).trans (h.row_unique (hrow k hk).1 hr (hrow k hk).2 hkr)
    · intro k hk
      exact (hi.ent _ _ (hmem k hk _ (by simp [tchunk]))).2
  exact Res.Sat.ok ⟨hWF, ⟨_, hT⟩, fun i j hi hj => hT.dense_eq h hWF hi hj⟩

/-! ## Products -/

variable [CommRing K]

/-- The product with the dense matrix. -/
def SpMat.mul (A : SpMat K) (n : Nat) (x : Nat → K) (i : Nat) : K :=
  ∑ j ∈ range n, A.dense i j * x j

theorem forRange_eq_from {σ : Type} {lo hi : Nat} {body : Nat → σ → Res σ} {s : σ} (P : Nat → σ)
    (hle : lo ≤ hi) (h0 : s = P lo)
    (hb : ∀ k, lo ≤ k → k < hi → body k (P k) = Res.ok (P (k + 1))) :
    forRange lo hi s body = Res.ok (P hi) := by
  obtain ⟨s', hs, h⟩ := forRange_inv (lo := lo) (hi := hi) (body := body) (fun k s => s = P k)
    hle h0 (by
      rintro i s h1 h2 rfl
      rw [hb i h1 h2, Res.sat_ok])
  rw [hs, h]

theorem spMatvecRow_eq {A : SpMat K} {n : Nat} (h : A.WF n) {x : List K} (hx : x.length = n)
    {i : Nat} (hi : i < n) {y : List K} (hy : y.length = n) :
    spMatvecRow A x i y = Res.ok (y.set i (A.mul n (at0 x) i)) := by
  have hl := h.rowMap_length
  have hel := h.ents_length
  obtain ⟨h1, h2⟩ := h.row_le hi
  unfold spMatvecRow
  rw [rd_atN (by omega), Res.ok_bind, rd_atN (by omega), Res.ok_bind,
    forRange_eq_from (fun k => ∑ e ∈ Ico (atN A.rowMap i) k, at0 A.ents e * at0 x (atN A.cols e)) h1
      (by simp), Res.ok_bind, wr_eq (by omega)]
  · congr 2
    unfold SpMat.mul SpMat.dense
    simp only [sum_mul]
    rw [sum_comm]
    refine sum_congr rfl fun k hk => ?_
    have := h.cols_lt k (by have := mem_Ico.1 hk; omega)
    simp only [ite_mul, zero_mul]
    rw [sum_ite_eq (range n) (atN A.cols k) (fun j => at0 A.ents k * at0 x j),
      if_pos (mem_range.2 this)]
  · intro k hk1 hk2
    have hc := h.cols_lt k (by omega)
    rw [rd_atN (by omega), Res.ok_bind, rd_at0 (by omega), Res.ok_bind, rd_at0 (by omega),
      Res.ok_bind, sum_Ico_succ_top hk1]
    rfl

theorem spMatvec_eq {A : SpMat K} {n : Nat} (h : A.WF n) {x out : List K} (hx : x.length = n)
    (ho : out.length = n) {o : List Nat} (hs : IsSchedule o n) :
    (spMatvec o A x out).Sat fun y => y.length = n ∧ ∀ i, i < n → at0 y i = A.mul n (at0 x) i :=
  parFor_map hs (fun i _ => A.mul n (at0 x) i)
    (fun i y hi hy => spMatvecRow_eq h hx hi hy) ho

theorem SpMat.mul_congr {A : SpMat K} {n : Nat} {x y : Nat → K} (h : ∀ j, j < n → x j = y j)
    (i : Nat) : A.mul n x i = A.mul n y i :=
  sum_congr rfl fun j hj => by rw [h j (mem_range.1 hj)]

theorem dot_congr_left {n : Nat} {a b c : Nat → K} (h : ∀ i, i < n → a i = b i) :
    ∑ i ∈ range n, a i * c i = ∑ i ∈ range n, b i * c i :=
  sum_congr rfl fun i hi => by rw [h i (mem_range.1 hi)]

theorem dot_congr_right {n : Nat} {a b c : Nat → K} (h : ∀ i, i < n → a i = b i) :
    ∑ i ∈ range n, c i * a i = ∑ i ∈ range n, c i * b i :=
  sum_congr rfl fun i hi => by rw [h i (mem_range.1 hi)]

/-- The product with mirrored entries is the adjoint. -/
theorem mul_adjoint {A T : SpMat K} {n : Nat} (h : ∀ i j, i < n → j < n → T.dense i j = A.dense j i)
    (x y : Nat → K) :
    ∑ i ∈ range n, A.mul n x i * y i = ∑ i ∈ range n, x i * T.mul n y i := by
  unfold SpMat.mul
  simp only [sum_mul, mul_sum]
  rw [sum_comm]
  refine sum_congr rfl fun j hj => sum_congr rfl fun i hi => ?_
  rw [h j i (mem_range.1 hj) (mem_range.1 hi)]
  ring

/-- **C16**: for a map matrix and an optional filter matrix with consistent extents, every order
of the atomic increments, every interleaving of the threads that build the transposes and every
schedule of the products, `apply` and `applyT` succeed for all vectors, `apply` is the product of
the matrices in the configured order, and `applyT` is its adjoint. -/
theorem C16_adjoint {n : Nat} {mat : SpMat K} {filter : Option (SpMat K)} (hm : mat.WF n)
    (hf : ∀ f, filter = some f → f.WF n) (ff : Bool) {o1 o2 : List Nat}
    {s1 s2 : List (List TMicro) → List (Nat × TMicro)}
    (ho1 : ∀ ops, transposeCountOps mat = Res.ok ops → IsSchedule o1 ops.length)
    (hs1 : ∀ progs, transposeThreads mat = Res.ok progs → IsInterleaving progs (s1 progs))
    (ho2 : ∀ f ops, filter = some f → transposeCountOps f = Res.ok ops → IsSchedule o2 ops.length)
    (hs2 : ∀ f progs, filter = some f → transposeThreads f = Res.ok progs →
      IsInterleaving progs (s2 progs)) :
    (MeshMapData.make o1 o2 s1 s2 mat filter ff).Sat fun m =>
      ∀ (p1 p2 p3 p4 : List Nat) (x y out out' : List K), IsSchedule p1 n → IsSchedule p2 n →
        IsSchedule p3 n → IsSchedule p4 n → x.length = n → y.length = n → out.length = n →
        out'.length = n →
        ∃ u v, m.apply p1 p2 x out = Res.ok u ∧ m.applyT p3 p4 y out' = Res.ok v ∧
          u.length = n ∧ v.length = n ∧
          (∀ i, i < n → at0 u i = match filter with
            | none => mat.mul n (at0 x) i
            | some f => if ff then mat.mul n (f.mul n (at0 x)) i
                else f.mul n (mat.mul n (at0 x)) i) ∧
          ∑ i ∈ range n, at0 u i * at0 y i = ∑ i ∈ range n, at0 x i * at0 v i := by
  unfold MeshMapData.make
  refine (C16_transpose hm ho1 hs1).bind ?_
  rintro matT ⟨hmT, -, hd⟩
  cases filter with
  | none =>
    refine Res.Sat.ok ?_
    intro p1 p2 p3 p4 x y out out' hp1 hp2 hp3 hp4 hx hy ho ho'
    obtain ⟨u, hu, hul, hu'⟩ := (spMatvec_eq hm hx ho hp1)
    obtain ⟨v, hv, hvl, hv'⟩ := (spMatvec_eq hmT hy ho' hp3)
    refine ⟨u, v, hu, hv, hul, hvl, hu', ?_⟩
    rw [dot_congr_left hu', dot_congr_right hv']
    exact mul_adjoint hd _ _
  | some f =>
    have hfW := hf f rfl
    refine (C16_transpose hfW (fun ops h => ho2 f ops rfl h) (fun p h => hs2 f p rfl h)).bind ?_
    rintro fT ⟨hfT, -, hdf⟩
    refine Res.Sat.ok ?_
    intro p1 p2 p3 p4 x y out out' hp1 hp2 hp3 hp4 hx hy ho ho'
    cases ff with
    | true =>
      obtain ⟨a, ha, hal, ha'⟩ := spMatvec_eq hfW hx ho hp1
      obtain ⟨u, hu, hul, hu'⟩ := spMatvec_eq hm hal (out := List.replicate a.length 0)
        (by simpa using hal) hp2
      obtain ⟨b, hb, hbl, hb'⟩ := spMatvec_eq hmT hy ho' hp3
      obtain ⟨v, hv, hvl, hv'⟩ := spMatvec_eq hfT hbl (out := List.replicate b.length 0)
        (by simpa using hbl) hp4
      refine ⟨u, v, ?_, ?_, hul, hvl, ?_, ?_⟩
      · show (spMatvec p1 f x out >>= fun y => spMatvecInPlace p2 mat y) = _
        rw [ha]; exact hu
      · show (spMatvec p3 matT y out' >>= fun y => spMatvecInPlace p4 fT y) = _
        rw [hb]; exact hv
      · intro i hi
        rw [hu' i hi]
        exact SpMat.mul_congr ha' i
      · rw [dot_congr_left hu', dot_congr_right hv', mul_adjoint hd,
          ← mul_adjoint hdf]
        refine sum_congr rfl fun i hi => ?_
        rw [ha' i (mem_range.1 hi), hb' i (mem_range.1 hi)]
    | false =>
      obtain ⟨a, ha, hal, ha'⟩ := spMatvec_eq hm hx ho hp1
      obtain ⟨u, hu, hul, hu'⟩ := spMatvec_eq hfW hal (out := List.replicate a.length 0)
        (by simpa using hal) hp2
      obtain ⟨b, hb, hbl, hb'⟩ := spMatvec_eq hfT hy ho' hp3
      obtain ⟨v, hv, hvl, hv'⟩ := spMatvec_eq hmT hbl (out := List.replicate b.length 0)
        (by simpa using hbl) hp4
      refine ⟨u, v, ?_, ?_, hul, hvl, ?_, ?_⟩
      · show (spMatvec p1 mat x out >>= fun y => spMatvecInPlace p2 f y) = _
        rw [ha]; exact hu
      · show (spMatvec p3 fT y out' >>= fun y => spMatvecInPlace p4 matT y) = _
        rw [hb]; exact hv
      · intro i hi
        rw [hu' i hi]
        exact SpMat.mul_congr ha' i
      · rw [dot_congr_left hu', dot_congr_right hv', mul_adjoint hdf,
          ← mul_adjoint hd]
        refine sum_congr rfl fun i hi => ?_
        rw [ha' i (mem_range.1 hi), hb' i (mem_range.1 hi)]

/-! ## A matrix meeting the hypotheses -/

/-- Two rows, `(1 2; 0 3)`. -/
def exMap : SpMat Int := ⟨[0, 2, 3], [0, 1, 1], [1, 2, 3], 2, 2⟩

theorem exMap_wf : exMap.WF 2 := by
  constructor
  all_goals try rfl
  · intro i hi; interval_cases i <;> decide
  · intro k hk
    have : k < 3 := hk
    interval_cases k <;> decide

/-- The second thread overtakes the first. -/
example : IsInterleaving ((List.range 2).map (tprog exMap))
    [(1, .fetch 2), (0, .fetch 0), (0, .setCol 0), (0, .setEnt 0), (0, .fetch 1), (1, .setCol 2),
      (0, .setCol 1), (1, .setEnt 2), (0, .setEnt 1)] := by
  refine ⟨by decide, ?_⟩
  intro t ht
  have : t < 2 := by simpa using ht
  interval_cases t <;> decide

example : transposeCountOps exMap = Res.ok [(0, 1), (1, 1), (1, 1)] := rfl

end Plato
