import Verif.Bc.Threads
import Verif.Fem.AssemblyProps

/-!
# The constrained linear system (C09, C10)
-/

namespace Plato
open Finset
variable {K : Type}

/-- Structural requirements on a system matrix: `n` block rows of `D x D` blocks, no column twice
in a row, symmetric pattern, stored diagonal. -/
structure BcMatrix (A : Crs K) (n D : Nat) : Prop where
  wf : A.WF n n
  rpb : A.rpb = D
  cpb : A.cpb = D
  nodup : ∀ I k l, I < n → atN A.rowMap I ≤ k → k < atN A.rowMap (I + 1) → atN A.rowMap I ≤ l →
    l < atN A.rowMap (I + 1) → atN A.cols k = atN A.cols l → k = l
  symm : ∀ I J, I < n → J < n → A.hasBlock I J → A.hasBlock J I
  diag : ∀ I, I < n → A.hasBlock I I

/-- Specification: rows and columns of the constrained unknowns replaced by those of the
identity. -/
def constrainedEntry [Zero K] [One K] (M : Nat → Nat → K) (dofs : List Nat) (i j : Nat) : K :=
  if i ∈ dofs ∨ j ∈ dofs then (if i = j then 1 else 0) else M i j

/-- Specification of the right hand side at an unconstrained equation. -/
def reducedRhs [CommRing K] (M : Nat → Nat → K) (b : List K) (scale : K) (dofs : List Nat)
    (bvals : List K) (i : Nat) : K :=
  at0 b i - ∑ t ∈ range dofs.length, M (atN dofs t) i * (scale * at0 bvals t)

/-- What is observed of the result: the arrays keep their shape, the matrix and the right hand side
are those of the constrained system. -/
structure Constrained [CommRing K] (A : Crs K) (n D : Nat) (scale : K) (rhs : List K)
    (dofs : List Nat) (bvals : List K) (A' : Crs K) (b' : List K) : Prop where
  shape : ∃ v, A' = { A with vals := v } ∧ v.length = A.vals.length
  rhs_length : b'.length = rhs.length
  entries : ∀ i j, i < n * D → j < n * D → A'.dense i j = constrainedEntry A.dense dofs i j
  prescribed : ∀ t, t < dofs.length → at0 b' (atN dofs t) = scale * at0 bvals t
  free : ∀ i, i < n * D → i ∉ dofs → at0 b' i = reducedRhs A.dense rhs scale dofs bvals i

theorem allThreads_eq [Mul K] {thread : Nat → K → Crs K → Res (List (CMicro K))}
    {prog : Nat → K → List (CMicro K)} {scale : K} [Zero K] {A : Crs K} {dofs : List Nat}
    {bvals : List K}
    (hb : bvals.length = dofs.length)
    (h : ∀ t v, t < dofs.length → thread (atN dofs t) v A = Res.ok (prog (atN dofs t) v)) :
    allThreads thread scale A dofs bvals = Res.ok ((List.range dofs.length).map fun t =>
      prog (atN dofs t) (scale * at0 bvals t)) := by
  unfold allThreads
  rw [forRange_append (fun t => [prog (atN dofs t) (scale * at0 bvals t)]) [] fun t ht acc => ?_]
  · rw [List.nil_append, List.map_eq_flatMap]
  · rw [rd_atN ht, rd_at0 (by omega)]
    simp only [Res.ok_bind]
    rw [h t _ ht]
    rfl

theorem entryAt_lt {A : Crs K} {n D q i j : Nat} (h : A.WF n n) (hr : A.rpb = D) (hc : A.cpb = D)
    (hi : i < n * D) (he : A.EntryAt D q i j) : q < A.vals.length ∧ j < n * D := by
  have hD : 0 < D := hr ▸ h.rpb_pos
  obtain ⟨k, k1, k2, k3, k4⟩ := he
  have hrow := (h.row_le (div_lt_of_lt hi)).2
  have hk : k < A.cols.length := by omega
  constructor
  · rw [h.vals_length, k4, Nat.add_assoc, hr, hc, Nat.mul_comm (D * D) A.cols.length]
    exact (block_lt (block_lt (Nat.mod_lt j hD) (Nat.mod_lt i hD)) hk)
  · have := h.cols_lt k hk
    rw [k3] at this
    rw [← Nat.div_add_mod j D]
    exact block_lt (Nat.mod_lt j hD) this

theorem hasBlock_of_entryAt {A : Crs K} {D q i j : Nat} (he : A.EntryAt D q i j) :
    A.hasBlock (i / D) (j / D) := by
  obtain ⟨k, k1, k2, k3, k4⟩ := he
  unfold Crs.hasBlock rowLen rowLenL
  exact ⟨k - atN A.rowMap (i / D), by omega, by rw [← k3]; congr 1; omega⟩

theorem entryAt_of_hasBlock {A : Crs K} {D i j : Nat} (h : A.hasBlock (i / D) (j / D)) :
    ∃ q, A.EntryAt D q i j := by
  unfold Crs.hasBlock rowLen rowLenL at h
  obtain ⟨q, hq, hqb⟩ := h
  exact ⟨_, atN A.rowMap (i / D) + q, by omega, by omega, hqb, rfl⟩

section
variable [CommRing K] {A : Crs K} {n D : Nat} {rhs : List K} {dofs : List Nat} {bvals : List K}

theorem applyConstraintsWith_sat (hA : BcMatrix A n D)
    {thread : Nat → K → Crs K → Res (List (CMicro K))}
    (hth : ∀ d v, d < n * D → thread d v A = Res.ok (blockProg D d v A))
    {sched : List (List (CMicro K)) → List (Nat × CMicro K)} (hsch : ∀ p, IsMerge p (sched p))
    {o2 : List Nat} (ho2 : IsSchedule o2 dofs.length) (scale : K)
    (hrhs : rhs.length = n * D) (hnd : dofs.Nodup) (hdofs : ∀ d ∈ dofs, d < n * D)
    (hbv : bvals.length = dofs.length) :
    (applyConstraintsWith thread sched o2 scale A rhs dofs bvals).Sat fun r =>
      Constrained A n D scale rhs dofs bvals r.1 r.2 := by
  have hwf := hA.wf
  have hD : 0 < D := hA.rpb ▸ hwf.rpb_pos
  have hdt : ∀ t, t < dofs.length → atN dofs t ∈ dofs := by
    intro t ht
    rw [show atN dofs t = dofs[t] from at0_eq ht]
    exact List.getElem_mem _
  have hinj : ∀ t t', t < dofs.length → t' < dofs.length → atN dofs t = atN dofs t' → t = t' := by
    intro t t' h1 h2 h3
    rw [show atN dofs t = dofs[t] from at0_eq h1, show atN dofs t' = dofs[t'] from at0_eq h2]
      at h3
    exact (hnd.getElem_inj_iff).1 h3
  have hbd : ∀ t, t < dofs.length → atN dofs t < n * D := fun t ht => hdofs _ (hdt t ht)
  have hex : ∀ d ∈ dofs, ∃ t, t < dofs.length ∧ atN dofs t = d := by
    intro d hd
    obtain ⟨t, ht, he⟩ := List.getElem_of_mem hd
    exact ⟨t, ht, by rw [show atN dofs t = dofs[t] from at0_eq ht, he]⟩
  unfold applyConstraintsWith
  rw [allThreads_eq (prog := fun d v => blockProg D d v A) hbv
    (fun t v ht => hth _ v (hbd t ht))]
  simp only [Res.ok_bind]
  set progs := (List.range dofs.length).map fun t =>
    blockProg D (atN dofs t) (scale * at0 bvals t) A with hprogs
  have hplen : progs.length = dofs.length := by simp [hprogs]
  obtain ⟨hm1, hm2⟩ := hsch progs
  set M := sched progs with hM
  have hproj : ∀ t, t < dofs.length →
      proj t M = blockProg D (atN dofs t) (scale * at0 bvals t) A := by
    intro t ht
    have := hm2 t (by omega)
    rw [hprogs, List.getElem?_map, List.getElem?_range ht] at this
    simpa using this.symm
  have hmem : ∀ t op, (t, op) ∈ M → t < dofs.length ∧
      op ∈ blockProg D (atN dofs t) (scale * at0 bvals t) A := by
    intro t op h
    have ht : t < dofs.length := by have := hm1 _ h; simp only at this; omega
    exact ⟨ht, by rw [← hproj t ht]; exact mem_proj.2 h⟩
  have hmem' : ∀ t op, t < dofs.length →
      op ∈ blockProg D (atN dofs t) (scale * at0 bvals t) A → (t, op) ∈ M := by
    intro t op ht h
    rw [← hproj t ht] at h
    exact mem_proj.1 h
  have one_iff := fun t (ht : t < dofs.length) => @one_mem_iff K A n D (atN dofs t)
    (scale * at0 bvals t) hwf hA.rpb hA.cpb (hbd t ht)
  have zero_iff := fun t (ht : t < dofs.length) => @zero_mem_iff K A n D (atN dofs t)
    (scale * at0 bvals t) hwf hA.rpb hA.cpb (hbd t ht)
  have load_iff := fun t (ht : t < dofs.length) => @load_mem_iff K A n D (atN dofs t)
    (scale * at0 bvals t) hwf hA.rpb hA.cpb (hbd t ht)
  have add_iff := fun t (ht : t < dofs.length) => @add_mem_iff K A n D (atN dofs t)
    (scale * at0 bvals t) hwf hA.rpb hA.cpb (hbd t ht)
  have lt := fun {q i j : Nat} (hi : i < n * D) (he : A.EntryAt D q i j) =>
    entryAt_lt hwf hA.rpb hA.cpb hi he
  have uniq := fun {q i j i' j' : Nat} (hi : i < n * D) (hi' : i' < n * D)
    (h1 : A.EntryAt D q i j) (h2 : A.EntryAt D q i' j') =>
      entryAt_unique hwf hA.rpb hA.cpb hi hi' h1 h2
  -- what a clearing operation of thread `t` touches
  have zero_cases : ∀ t p, (t, CMicro.zero p) ∈ M → t < dofs.length ∧ ∃ i j, i ≠ j ∧ i < n * D ∧
      A.EntryAt D p i j ∧ (i = atN dofs t ∨ j = atN dofs t) := by
    intro t p h
    obtain ⟨ht, h⟩ := hmem _ _ h
    obtain ⟨j, hj, h | ⟨⟨q', h1⟩, h2⟩⟩ := (zero_iff t ht).1 h
    · exact ⟨ht, _, j, Ne.symm hj, hbd t ht, h, Or.inl rfl⟩
    · exact ⟨ht, j, _, hj, (lt (hbd t ht) h1).2, h2, Or.inr rfl⟩
  refine Res.Sat.bind (runMicro_sat A.vals rhs M ?_ ?_ ?_ ?_ ?_ ?_ (fun c => c ∉ dofs) ?_) ?_
  · intro t
    by_cases ht : t < dofs.length
    · rw [hproj t ht]
      exact blockProg_ordered hwf hA.rpb hA.cpb (hbd t ht)
    · have : proj t M = [] := by
        rw [List.eq_nil_iff_forall_not_mem]
        intro op hop
        exact ht (hmem _ _ (mem_proj.1 hop)).1
      rw [this]; trivial
  · intro t p h
    obtain ⟨ht, h⟩ := hmem _ _ h
    exact (lt (hbd t ht) ((one_iff t ht).1 h)).1
  · intro t p h
    obtain ⟨ht, i, j, -, hi, he, -⟩ := zero_cases t p h
    exact (lt hi he).1
  · intro t p h
    obtain ⟨ht, h⟩ := hmem _ _ h
    obtain ⟨j, -, he⟩ := (load_iff t ht).1 h
    exact (lt (hbd t ht) he).1
  · intro t p c v h
    obtain ⟨ht, h⟩ := hmem _ _ h
    obtain ⟨-, he, -⟩ := (add_iff t ht).1 h
    rw [hrhs]
    exact (lt (hbd t ht) he).2
  · intro t t' p h1 h0
    obtain ⟨ht, h1⟩ := hmem _ _ h1
    have e1 := (one_iff t ht).1 h1
    obtain ⟨ht', i, j, hij, hi, he, -⟩ := zero_cases t' p h0
    obtain ⟨rfl, rfl⟩ := uniq hi (hbd t ht) he e1
    exact hij rfl
  · intro t p c v h hc
    obtain ⟨ht, h⟩ := hmem _ _ h
    obtain ⟨hne, he, -⟩ := (add_iff t ht).1 h
    constructor
    · intro t' h1
      obtain ⟨ht', h1⟩ := hmem _ _ h1
      have := uniq (hbd t ht) (hbd t' ht') he ((one_iff t' ht').1 h1)
      exact hc (this.2 ▸ hdt t' ht')
    · intro t' h0
      obtain ⟨ht', i, j, -, hi, he', hor⟩ := zero_cases t' p h0
      obtain ⟨rfl, rfl⟩ := uniq hi (hbd t ht) he' he
      rcases hor with h | h
      · exact (hinj _ _ ht ht' h).symm
      · exact absurd (h ▸ hdt t' ht') hc
  · rintro s ⟨s1, s2, s3, s4, s5, s6⟩
    refine Res.Sat.bind (parFor_sched ho2 (fun S b => b.length = n * D ∧ (∀ t ∈ S,
      at0 b (atN dofs t) = scale * at0 bvals t) ∧ ∀ i, i ∉ dofs → at0 b i = at0 s.rhs i)
        ⟨by omega, by simp, fun _ _ => rfl⟩ ?_) ?_
    · rintro S t b ht htS hS ⟨b1, b2, b3⟩
      unfold setConstrainedRhs
      rw [rd_atN ht, rd_at0 (by omega)]
      simp only [Res.ok_bind]
      have hb := hbd t ht
      rw [wr_eq (by omega)]
      refine Res.Sat.ok ⟨by simpa using b1, ?_, ?_⟩
      · intro t' ht'
        rw [at0_set (by omega)]
        by_cases htt : t' = t
        · rw [htt, if_pos rfl]
        · rw [mem_insert] at ht'
          have hS' := ht'.resolve_left htt
          rw [if_neg, b2 t' hS']
          intro he
          exact htt (hinj _ _ (mem_range.1 (hS hS')) ht he)
      · intro i hi
        rw [at0_set (by omega), if_neg, b3 i hi]
        rintro rfl
        exact hi (hdt t ht)
    · rintro b ⟨b1, b2, b3⟩
      refine Res.Sat.ok ⟨⟨_, rfl, s1⟩, b1.trans hrhs.symm, ?_, fun t ht => b2 t (mem_range.2 ht), ?_⟩
      · intro i j hi hj
        unfold Crs.dense constrainedEntry
        rw [hA.rpb, hA.cpb]
        have hin : i / D < n := div_lt_of_lt hi
        -- the entry at each candidate position
        have hpos : ∀ k ∈ Ico (atN A.rowMap (i / D)) (atN A.rowMap (i / D + 1)),
            atN A.cols k = j / D → A.EntryAt D (D * D * k + D * (i % D) + j % D) i j := by
          intro k hk hkj
          rw [mem_Ico] at hk
          exact ⟨k, hk.1, hk.2, hkj, by rw [hA.rpb, hA.cpb]⟩
        show (∑ k ∈ Ico (atN A.rowMap (i / D)) (atN A.rowMap (i / D + 1)),
          if atN A.cols k = j / D then at0 s.vals (D * D * k + D * (i % D) + j % D) else 0) = _
        by_cases hc : i ∈ dofs ∨ j ∈ dofs
        · rw [if_pos hc]
          by_cases hij : i = j
          · rw [if_pos hij]
            subst hij
            have hi' : i ∈ dofs := by simpa using hc
            obtain ⟨t, ht, rfl⟩ := hex i hi'
            obtain ⟨q, k, k1, k2, k3, -⟩ := entryAt_of_hasBlock (hA.diag _ hin)
            rw [sum_eq_single k]
            · rw [if_pos k3]
              have he := hpos k (mem_Ico.2 ⟨k1, k2⟩) k3
              exact s3 _ ⟨t, hmem' t _ ht ((one_iff t ht).2 he)⟩
            · intro l hl hlk
              rw [if_neg]
              intro hl'
              rw [mem_Ico] at hl
              exact hlk (hA.nodup _ _ _ hin hl.1 hl.2 k1 k2 (by rw [hl', k3]))
            · intro h; exact absurd (mem_Ico.2 ⟨k1, k2⟩) h
          · rw [if_neg hij]
            apply sum_eq_zero
            intro k hk
            split
            · rename_i hkj
              have he := hpos k hk hkj
              rcases hc with hc | hc
              · obtain ⟨t, ht, rfl⟩ := hex i hc
                exact s4 _ ⟨t, hmem' t _ ht ((zero_iff t ht).2 ⟨j, Ne.symm hij, Or.inl he⟩)⟩
              · obtain ⟨t, ht, rfl⟩ := hex j hc
                refine s4 _ ⟨t, hmem' t _ ht ((zero_iff t ht).2 ⟨i, hij, Or.inr ⟨?_, he⟩⟩)⟩
                exact entryAt_of_hasBlock (hA.symm _ _ hin (div_lt_of_lt hj)
                  (hasBlock_of_entryAt he))
            · rfl
        · rw [if_neg hc]
          refine sum_congr rfl fun k hk => ?_
          split
          · rename_i hkj
            have he := hpos k hk hkj
            apply s5
            · intro t h
              obtain ⟨ht, h⟩ := hmem _ _ h
              have := uniq hi (hbd t ht) he ((one_iff t ht).1 h)
              exact hc (Or.inl (this.1 ▸ hdt t ht))
            · intro t h
              obtain ⟨ht, i', j', -, hi', he', hor⟩ := zero_cases t _ h
              obtain ⟨rfl, rfl⟩ := uniq hi' hi he' he
              rcases hor with h | h
              · exact hc (Or.inl (h ▸ hdt t ht))
              · exact hc (Or.inr (h ▸ hdt t ht))
          · rfl
      · intro i hi hic
        rw [b3 i hic, s6 i hic, merge_sum (hsch progs) (addTerm A.vals i), hplen, reducedRhs,
          sub_eq_add_neg, ← sum_neg_distrib]
        congr 1
        refine sum_congr rfl fun t ht => ?_
        have ht := mem_range.1 ht
        have : progs.getD t [] = blockProg D (atN dofs t) (scale * at0 bvals t) A := by
          rw [hprogs, List.getD_eq_getElem?_getD, List.getElem?_map, List.getElem?_range ht]
          rfl
        rw [this, blockProg_sum hwf hA.rpb hA.cpb]
        · ring
        · rintro rfl; exact hic (hdt t ht)

/-- **C09**, block version: under every interleaving of the threads of the first kernel and every
schedule of the second, the result is the constrained system. -/
theorem C09_applyBlockConstraints (hA : BcMatrix A n D)
    {sched : List (List (CMicro K)) → List (Nat × CMicro K)} (hsch : ∀ p, IsMerge p (sched p))
    {o2 : List Nat} (ho2 : IsSchedule o2 dofs.length) (scale : K)
    (hrhs : rhs.length = n * D) (hnd : dofs.Nodup) (hdofs : ∀ d ∈ dofs, d < n * D)
    (hbv : bvals.length = dofs.length) :
    (applyBlockConstraints D sched o2 scale A rhs dofs bvals).Sat fun r =>
      Constrained A n D scale rhs dofs bvals r.1 r.2 :=
  applyConstraintsWith_sat hA (fun _ v hd => blockThread_eq v hA.wf hd) hsch ho2 scale hrhs hnd
    hdofs hbv

omit [CommRing K] in
theorem scalarThread_eq {dof : Nat} (v : K) (h : A.WF n n) (hd : dof < n * 1) :
    scalarThread dof v A = Res.ok (blockProg 1 dof v A) := by
  have hI : dof < n := by omega
  obtain ⟨h1, h2⟩ := h.row_le hI
  have hrl := h.rowMap_length
  unfold scalarThread blockProg rowIdx
  rw [rd_atN (by omega), rd_atN (by omega)]
  simp only [Res.ok_bind]
  rw [forRange_append' (fun k => chunk 1 dof v A (k, 0)) [] fun k hk1 hk2 acc => ?_]
  · simp [List.flatMap_assoc]
  · unfold scalarEntryOps
    rw [rd_atN (by omega)]
    simp only [Res.ok_bind]
    unfold chunk
    simp only [Nat.one_mul, Nat.add_zero, Nat.mod_one]
    by_cases hc : atN A.cols k = dof
    · rw [if_pos hc, if_pos hc]; rfl
    · have hcol := h.cols_lt k (by omega)
      obtain ⟨h3, h4⟩ := h.row_le hcol
      rw [if_neg hc, if_neg hc, rd_atN (by omega), rd_atN (by omega)]
      simp only [Res.ok_bind]
      rw [forRange_append' (fun m => if atN A.cols m = dof then [CMicro.zero m] else []) _
        fun m hm1 hm2 acc => ?_]
      · simp
      · unfold scalarClearStep
        rw [rd_atN (by omega)]
        simp only [Res.ok_bind]
        by_cases hm : atN A.cols m = dof
        · rw [if_pos hm, if_pos hm]; rfl
        · rw [if_neg hm, if_neg hm]; simp

/-- **C09**, scalar version. -/
theorem C09_applyConstraints (hA : BcMatrix A n 1)
    {sched : List (List (CMicro K)) → List (Nat × CMicro K)} (hsch : ∀ p, IsMerge p (sched p))
    {o2 : List Nat} (ho2 : IsSchedule o2 dofs.length) (scale : K)
    (hrhs : rhs.length = n) (hnd : dofs.Nodup) (hdofs : ∀ d ∈ dofs, d < n)
    (hbv : bvals.length = dofs.length) :
    (applyConstraints sched o2 scale A rhs dofs bvals).Sat fun r =>
      Constrained A n 1 scale rhs dofs bvals r.1 r.2 :=
  applyConstraintsWith_sat hA (fun _ v hd => scalarThread_eq v hA.wf hd) hsch ho2 scale
    (by omega) hnd (fun d hd => by have := hdofs d hd; omega) hbv

end
end Plato
