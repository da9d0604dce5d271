import Verif.Bc.Constraints
import Mathlib.Tactic.LinearCombination

/-!
# C09, C10: consequences for the user of the constrained system
-/

namespace Plato
open Finset
variable {K : Type}

/-- `x` solves the linear system with matrix `M` and right hand side `b`, `N` unknowns. -/
def Solves [CommRing K] (N : Nat) (M : Nat → Nat → K) (b x : Nat → K) : Prop :=
  ∀ i, i < N → ∑ j ∈ range N, M i j * x j = b i

theorem sum_dofs [AddCommMonoid K] {dofs : List Nat} {N : Nat} (hnd : dofs.Nodup)
    (hlt : ∀ d ∈ dofs, d < N) (f : Nat → K) :
    (∑ j ∈ range N, if j ∈ dofs then f j else 0) = ∑ t ∈ range dofs.length, f (atN dofs t) := by
  rw [← sum_filter]
  have himg : (range N).filter (· ∈ dofs) = (range dofs.length).image (atN dofs) := by
    ext j
    simp only [mem_filter, mem_range, mem_image]
    constructor
    · rintro ⟨-, hj⟩
      obtain ⟨t, ht, he⟩ := List.getElem_of_mem hj
      exact ⟨t, ht, by rw [← he]; exact at0_eq ht⟩
    · rintro ⟨t, ht, rfl⟩
      have : atN dofs t ∈ dofs := by
        rw [show atN dofs t = dofs[t] from at0_eq ht]; exact List.getElem_mem _
      exact ⟨hlt _ this, this⟩
  rw [himg, sum_image]
  intro t ht t' ht' he
  have h1 := mem_range.1 ht
  have h2 := mem_range.1 ht'
  rw [show atN dofs t = dofs[t] from at0_eq h1, show atN dofs t' = dofs[t'] from at0_eq h2] at he
  exact (hnd.getElem_inj_iff).1 he

/-- **C09**: for a symmetric matrix the constrained system has exactly the vectors as solutions
that take the prescribed values and satisfy the original equations of the free unknowns. -/
theorem C09_solution [CommRing K] {A A' : Crs K} {n D : Nat} {scale : K} {rhs b' : List K}
    {dofs : List Nat} {bvals : List K} (hres : Constrained A n D scale rhs dofs bvals A' b')
    (hsym : ∀ i j, i < n * D → j < n * D → A.dense i j = A.dense j i) (hnd : dofs.Nodup)
    (hdofs : ∀ d ∈ dofs, d < n * D) (x : Nat → K) :
    Solves (n * D) A'.dense (at0 b') x ↔
      (∀ t, t < dofs.length → x (atN dofs t) = scale * at0 bvals t) ∧
      ∀ i, i < n * D → i ∉ dofs → ∑ j ∈ range (n * D), A.dense i j * x j = at0 rhs i := by
  have hdt : ∀ t, t < dofs.length → atN dofs t ∈ dofs := by
    intro t ht
    rw [show atN dofs t = dofs[t] from at0_eq ht]
    exact List.getElem_mem _
  have hc : ∀ t, t < dofs.length →
      (∑ j ∈ range (n * D), A'.dense (atN dofs t) j * x j = at0 b' (atN dofs t) ↔
        x (atN dofs t) = scale * at0 bvals t) := by
    intro t ht
    have hlt := hdofs _ (hdt t ht)
    rw [hres.prescribed t ht, sum_eq_single (atN dofs t)]
    · rw [hres.entries _ _ hlt hlt, constrainedEntry, if_pos (Or.inl (hdt t ht)), if_pos rfl,
        one_mul]
    · intro j hj hne
      rw [hres.entries _ _ hlt (mem_range.1 hj), constrainedEntry, if_pos (Or.inl (hdt t ht)),
        if_neg (Ne.symm hne), zero_mul]
    · intro h; exact absurd (mem_range.2 hlt) h
  have hf : (∀ t, t < dofs.length → x (atN dofs t) = scale * at0 bvals t) →
      ∀ i, i < n * D → i ∉ dofs →
        (∑ j ∈ range (n * D), A'.dense i j * x j = at0 b' i ↔
          ∑ j ∈ range (n * D), A.dense i j * x j = at0 rhs i) := by
    intro hx i hi hid
    have e1 : ∑ j ∈ range (n * D), A'.dense i j * x j =
        ∑ j ∈ range (n * D), A.dense i j * x j -
          ∑ j ∈ range (n * D), if j ∈ dofs then A.dense i j * x j else 0 := by
      rw [← sum_sub_distrib]
      refine sum_congr rfl fun j hj => ?_
      rw [hres.entries _ _ hi (mem_range.1 hj), constrainedEntry]
      by_cases hjd : j ∈ dofs
      · rw [if_pos (Or.inr hjd), if_pos hjd, if_neg (by rintro rfl; exact hid hjd)]
        ring
      · rw [if_neg (by tauto), if_neg hjd, sub_zero]
    rw [e1, sum_dofs hnd hdofs, hres.free i hi hid, reducedRhs]
    have e2 : ∑ t ∈ range dofs.length, A.dense i (atN dofs t) * x (atN dofs t) =
        ∑ t ∈ range dofs.length, A.dense (atN dofs t) i * (scale * at0 bvals t) := by
      refine sum_congr rfl fun t ht => ?_
      have ht := mem_range.1 ht
      rw [hx t ht, hsym _ _ hi (hdofs _ (hdt t ht))]
    rw [e2]
    exact ⟨fun h => by linear_combination h, fun h => by linear_combination h⟩
  constructor
  · intro hs
    have hx : ∀ t, t < dofs.length → x (atN dofs t) = scale * at0 bvals t :=
      fun t ht => (hc t ht).1 (hs _ (hdofs _ (hdt t ht)))
    exact ⟨hx, fun i hi hid => (hf hx i hi hid).1 (hs i hi)⟩
  · rintro ⟨hx, hfree⟩ i hi
    by_cases hid : i ∈ dofs
    · obtain ⟨t, ht, he⟩ := List.getElem_of_mem hid
      have : i = atN dofs t := by rw [← he]; exact (at0_eq ht).symm
      rw [this]
      exact (hc t ht).2 (hx t ht)
    · exact (hf hx i hi hid).2 (hfree i hi hid)

/-- **C10**: a symmetric matrix stays symmetric; constrained rows and columns are those of the
identity. -/
theorem C10_symmetric [CommRing K] {A A' : Crs K} {n D : Nat} {scale : K} {rhs b' : List K}
    {dofs : List Nat} {bvals : List K} (hres : Constrained A n D scale rhs dofs bvals A' b')
    (hsym : ∀ i j, i < n * D → j < n * D → A.dense i j = A.dense j i) :
    (∀ i j, i < n * D → j < n * D → A'.dense i j = A'.dense j i) ∧
    ∀ d i, d ∈ dofs → d < n * D → i < n * D →
      A'.dense d i = (if d = i then 1 else 0) ∧ A'.dense i d = (if i = d then 1 else 0) := by
  constructor
  · intro i j hi hj
    rw [hres.entries i j hi hj, hres.entries j i hj hi, constrainedEntry, constrainedEntry]
    by_cases h : i ∈ dofs ∨ j ∈ dofs
    · rw [if_pos h, if_pos (Or.symm h)]
      exact if_congr eq_comm rfl rfl
    · rw [if_neg h, if_neg (fun h' => h (Or.symm h')), hsym i j hi hj]
  · intro d i hd hdl hi
    rw [hres.entries d i hdl hi, hres.entries i d hi hdl, constrainedEntry, constrainedEntry,
      if_pos (Or.inl hd), if_pos (Or.inr hd)]
    exact ⟨rfl, rfl⟩

theorem exists_row {rm : List Nat} {n k : Nat} (h0 : atN rm 0 = 0) (hk : k < atN rm n) :
    ∃ I, I < n ∧ atN rm I ≤ k ∧ k < atN rm (I + 1) := by
  induction n with
  | zero => omega
  | succ n ih =>
    rcases Nat.lt_or_ge k (atN rm n) with h | h
    · obtain ⟨I, h1, h2⟩ := ih h
      exact ⟨I, by omega, h2⟩
    · exact ⟨n, by omega, h, hk⟩

/-- With no column stored twice in a row, the stored values are determined by the entries. -/
theorem vals_of_dense [AddCommMonoid K] {A : Crs K} {n D : Nat} (hA : BcMatrix A n D)
    {v w : List K} (hv : v.length = A.vals.length) (hw : w.length = A.vals.length)
    (h : ∀ i j, i < n * D → j < n * D →
      Crs.dense { A with vals := v } i j = Crs.dense { A with vals := w } i j) : v = w := by
  have hD : 0 < D := hA.rpb ▸ hA.wf.rpb_pos
  have hDD : 0 < D * D := Nat.mul_pos hD hD
  refine ext_at0 (hv.trans hw.symm) fun q hq => ?_
  rw [hv, hA.wf.vals_length, hA.rpb, hA.cpb] at hq
  have hk : q / (D * D) < A.cols.length :=
    Nat.div_lt_of_lt_mul hq
  set k := q / (D * D) with hkdef
  obtain ⟨I, hI, hI1, hI2⟩ := exists_row hA.wf.rowMap_zero (by rw [hA.wf.rowMap_last]; exact hk)
  set r := q % (D * D) / D with hr
  set c := q % (D * D) % D with hc
  have hcD : c < D := Nat.mod_lt _ hD
  have hrD : r < D := Nat.div_lt_of_lt_mul (Nat.mod_lt _ hDD)
  have hqe : q = D * D * k + D * r + c := by
    rw [Nat.add_assoc, hr, hc, Nat.div_add_mod, hkdef, Nat.div_add_mod]
  have hcol := hA.wf.cols_lt k hk
  have hone : ∀ u : List K, Crs.dense { A with vals := u } (D * I + r) (D * atN A.cols k + c) =
      at0 u q := by
    intro u
    unfold Crs.dense
    show (∑ l ∈ Ico (atN A.rowMap ((D * I + r) / A.rpb)) (atN A.rowMap ((D * I + r) / A.rpb + 1)),
      if atN A.cols l = (D * atN A.cols k + c) / A.cpb then
        at0 u (A.rpb * A.cpb * l + A.cpb * ((D * I + r) % A.rpb) +
          (D * atN A.cols k + c) % A.cpb) else 0) = _
    rw [hA.rpb, hA.cpb, div_block hrD, div_block hcD, mod_block hrD, mod_block hcD,
      sum_eq_single k]
    · rw [if_pos rfl, ← hqe]
    · intro l hl hne
      rw [mem_Ico] at hl
      rw [if_neg]
      intro he
      exact hne (hA.nodup I l k hI hl.1 hl.2 hI1 hI2 he)
    · intro hh; exact absurd (mem_Ico.2 ⟨hI1, hI2⟩) hh
  have := h (D * I + r) (D * atN A.cols k + c) (block_lt hrD hI) (block_lt hcD hcol)
  rwa [hone, hone] at this

/-- The boundary condition lists hold the same (dof, value) pairs. -/
def SamePairs [Zero K] (dofs : List Nat) (bvals : List K) (dofs' : List Nat) (bvals' : List K) :
    Prop :=
  (dofs.zip bvals).Perm (dofs'.zip bvals')

theorem sum_pairs [Zero K] {L : Type} [AddCommMonoid L] {dofs : List Nat} {bvals : List K}
    (hl : bvals.length = dofs.length) (f : Nat → K → L) :
    ∑ t ∈ range dofs.length, f (atN dofs t) (at0 bvals t) =
      ((dofs.zip bvals).map fun x => f x.1 x.2).sum := by
  rw [← sum_map_range]
  congr 1
  apply List.ext_getElem
  · simp [hl]
  · intro t h1 h2
    have ht : t < dofs.length := by simpa using h1
    have ht' : t < bvals.length := by omega
    simp [show atN dofs t = dofs[t] from at0_eq ht, at0_eq ht']

/-- **C10**: the result does not depend on the interleaving, on the schedules or on the order of
the list of conditions: two runs give the same arrays. -/
theorem C10_order_independent [CommRing K] {A A1 A2 : Crs K} {n D : Nat} {scale : K}
    {rhs b1 b2 : List K} {dofs dofs' : List Nat} {bvals bvals' : List K} (hA : BcMatrix A n D)
    (hrhs : rhs.length = n * D)
    (hbv : bvals.length = dofs.length) (hbv' : bvals'.length = dofs'.length)
    (h1 : Constrained A n D scale rhs dofs bvals A1 b1)
    (h2 : Constrained A n D scale rhs dofs' bvals' A2 b2)
    (hp : SamePairs dofs bvals dofs' bvals') : A1 = A2 ∧ b1 = b2 := by
  have hfst : dofs.Perm dofs' := by
    have := hp.map Prod.fst
    rwa [List.map_fst_zip (by omega), List.map_fst_zip (by omega)] at this
  obtain ⟨v, rfl, hv⟩ := h1.shape
  obtain ⟨w, rfl, hw⟩ := h2.shape
  constructor
  · rw [vals_of_dense hA hv hw]
    intro i j hi hj
    rw [h1.entries i j hi hj, h2.entries i j hi hj, constrainedEntry, constrainedEntry]
    simp only [hfst.mem_iff]
  · refine ext_at0 (h1.rhs_length.trans h2.rhs_length.symm) fun i hi => ?_
    rw [h1.rhs_length, hrhs] at hi
    by_cases hid : i ∈ dofs
    · obtain ⟨t, ht, he⟩ := List.getElem_of_mem hid
      have e : atN dofs t = i := by rw [← he]; exact at0_eq ht
      have hmem : (i, at0 bvals t) ∈ dofs.zip bvals := by
        rw [List.mem_iff_getElem]
        refine ⟨t, by simp; omega, ?_⟩
        rw [List.getElem_zip, he, at0_eq (by omega)]
      obtain ⟨t', ht', he'⟩ := List.getElem_of_mem (hp.mem_iff.1 hmem)
      rw [List.getElem_zip, Prod.mk.injEq] at he'
      have hl : t' < dofs'.length := by simp at ht'; omega
      have e' : atN dofs' t' = i := by rw [← he'.1]; exact at0_eq hl
      have x1 := h1.prescribed t ht
      have x2 := h2.prescribed t' hl
      rw [e] at x1
      rw [e', at0_eq (show t' < bvals'.length by omega), he'.2] at x2
      rw [x1, x2]
    · rw [h1.free i hi hid, h2.free i hi (fun h => hid (hfst.mem_iff.2 h)), reducedRhs, reducedRhs,
        sum_pairs hbv (fun d x => A.dense d i * (scale * x)),
        sum_pairs hbv' (fun d x => A.dense d i * (scale * x)), (hp.map _).sum_eq]

/-- **C10**: block and scalar storage of the same matrix give the same constrained system. -/
theorem C10_storage_independent [CommRing K] {A B A' B' : Crs K} {n D : Nat} {scale : K}
    {rhs b1 b2 : List K} {dofs : List Nat} {bvals : List K} (hrhs : rhs.length = n * D)
    (hsame : ∀ i j, i < n * D → j < n * D → A.dense i j = B.dense i j)
    (hdofs : ∀ d ∈ dofs, d < n * D)
    (h1 : Constrained A n D scale rhs dofs bvals A' b1)
    (h2 : Constrained B (n * D) 1 scale rhs dofs bvals B' b2) :
    (∀ i j, i < n * D → j < n * D → A'.dense i j = B'.dense i j) ∧ b1 = b2 := by
  constructor
  · intro i j hi hj
    rw [h1.entries i j hi hj, h2.entries i j (by omega) (by omega), constrainedEntry,
      constrainedEntry, hsame i j hi hj]
  · refine ext_at0 (h1.rhs_length.trans h2.rhs_length.symm) fun i hi => ?_
    rw [h1.rhs_length, hrhs] at hi
    by_cases hid : i ∈ dofs
    · obtain ⟨t, ht, he⟩ := List.getElem_of_mem hid
      have e : i = atN dofs t := by rw [← he]; exact (at0_eq ht).symm
      rw [e, h1.prescribed t ht, h2.prescribed t ht]
    · rw [h1.free i hi hid, h2.free i (by omega) hid, reducedRhs, reducedRhs]
      congr 1
      refine sum_congr rfl fun t ht => ?_
      have ht := mem_range.1 ht
      have hdt : atN dofs t ∈ dofs := by
        rw [show atN dofs t = dofs[t] from at0_eq ht]; exact List.getElem_mem _
      rw [hsame _ _ (hdofs _ hdt) hi]

/-- A serial execution of the first kernel, one thread after the other. -/
def serialSched (progs : List (List (CMicro K))) : List (Nat × CMicro K) :=
  (List.range progs.length).flatMap fun t => (progs.getD t []).map fun op => (t, op)

theorem serialSched_isMerge (progs : List (List (CMicro K))) :
    IsMerge progs (serialSched progs) := by
  constructor
  · intro x hx
    unfold serialSched at hx
    rw [List.mem_flatMap] at hx
    obtain ⟨t, ht, hx⟩ := hx
    rw [List.mem_map] at hx
    obtain ⟨_, _, rfl⟩ := hx
    exact List.mem_range.1 ht
  · intro t ht
    have key : ∀ (m : Nat) (f : Nat → List (CMicro K)),
        proj t ((List.range m).flatMap fun s => (f s).map fun op => (s, op)) =
          if t < m then f t else [] := by
      intro m f
      induction m with
      | zero => simp [proj]
      | succ m ih =>
        rw [List.range_succ, List.flatMap_append, proj_append, ih]
        have e1 : proj t ((f m).map fun op => (m, op)) = if m = t then f m else [] := by
          by_cases h : m = t
          · subst h
            simp [proj, List.filter_map, List.map_map, Function.comp_def]
          · simp [proj, List.filter_map, Function.comp_def, h]
        simp only [List.flatMap_cons, List.flatMap_nil, List.append_nil]
        rw [e1]
        rcases Nat.lt_trichotomy t m with h | h | h
        · rw [if_pos h, if_neg (by omega), if_pos (by omega), List.append_nil]
        · subst h; simp
        · rw [if_neg (by omega), if_neg (by omega), if_neg (by omega)]; rfl
    unfold serialSched
    rw [key, if_pos ht, List.getD_eq_getElem?_getD, List.getElem?_eq_getElem ht]
    rfl

/-- Matrices created from the node-node graph of a mesh and filled by the assembly satisfy the
structural requirements. -/
theorem C09_created [CommRing K] {A : Crs K} {orm oab : List Nat} {n D : Nat} (h : A.WF n n)
    (hr : A.rpb = D) (hc : A.cpb = D)
    (hrow : ∀ I, I < n → (A.rowCols I).Perm (I :: nbrs orm oab I))
    (hnd : ∀ I, I < n → (I :: nbrs orm oab I).Nodup)
    (hsym : ∀ I J, I < n → J < n → J ∈ nbrs orm oab I → I ∈ nbrs orm oab J) : BcMatrix A n D where
  wf := h
  rpb := hr
  cpb := hc
  nodup := by
    intro I k l hI k1 k2 l1 l2 he
    have hnd' := (hrow I hI).nodup_iff.2 (hnd I hI)
    unfold Crs.rowCols at hnd'
    rw [List.nodup_map_iff_inj_on (List.nodup_range')] at hnd'
    exact hnd' k (by rw [List.mem_range'_1]; omega) l (by rw [List.mem_range'_1]; omega) he
  symm := by
    intro I J hI hJ hb
    rw [hasBlock_iff h hI, (hrow I hI).mem_iff] at hb
    rw [hasBlock_iff h hJ, (hrow J hJ).mem_iff]
    rcases List.mem_cons.1 hb with rfl | hb
    · exact List.mem_cons_self
    · exact List.mem_cons_of_mem _ (hsym I J hI hJ hb)
  diag := by
    intro I hI
    rw [hasBlock_iff h hI, (hrow I hI).mem_iff]
    exact List.mem_cons_self

/-- A concrete symmetric matrix, one constrained unknown: the hypotheses are met. -/
def bcExample : Crs Int :=
  { rowMap := [0, 2, 4], cols := [0, 1, 0, 1], vals := [4, -1, -1, 3], numRows? := some 2,
    numCols? := some 2, rpb := 1, cpb := 1 }

theorem C09_example : BcMatrix bcExample 2 1 where
  wf := ⟨by decide, by decide, rfl, rfl, by decide, rfl, by decide, rfl, rfl, rfl⟩
  rpb := rfl
  cpb := rfl
  nodup := by
    intro I k l hI k1 k2 l1 l2 he
    have : I = 0 ∨ I = 1 := by omega
    rcases this with rfl | rfl
    · have hk : k = 0 ∨ k = 1 := by
        have : k < 2 := k2
        omega
      have hl : l = 0 ∨ l = 1 := by
        have : l < 2 := l2
        omega
      rcases hk with rfl | rfl <;> rcases hl with rfl | rfl <;> first | rfl | exact absurd he (by decide)
    · have hk : k = 2 ∨ k = 3 := by
        have : k < 4 := k2
        have : 2 ≤ k := k1
        omega
      have hl : l = 2 ∨ l = 3 := by
        have : l < 4 := l2
        have : 2 ≤ l := l1
        omega
      rcases hk with rfl | rfl <;> rcases hl with rfl | rfl <;> first | rfl | exact absurd he (by decide)
  symm := by
    intro I J hI hJ _
    have : J = 0 ∨ J = 1 := by omega
    have : I = 0 ∨ I = 1 := by omega
    unfold Crs.hasBlock
    refine ⟨I, ?_, ?_⟩ <;> rcases ‹J = 0 ∨ J = 1› with rfl | rfl <;>
      rcases ‹I = 0 ∨ I = 1› with rfl | rfl <;> decide
  diag := by
    intro I hI
    have : I = 0 ∨ I = 1 := by omega
    unfold Crs.hasBlock
    refine ⟨I, ?_, ?_⟩ <;> rcases ‹I = 0 ∨ I = 1› with rfl | rfl <;> decide

example : applyConstraints serialSched [0] 1 bcExample [5, 7] [0] [2] =
    Res.ok ({ bcExample with vals := [1, 0, 0, 3] }, [2, 9]) := rfl

/-- For a non-symmetric matrix C09 fails: the eliminated column is read from the constrained row.
Matrix `[[1,0],[5,1]]`, unknown 0 prescribed to 1, right hand side 0: the modified system has the
solution `(1, 0)`, which violates the second original equation `5*1 + 0 = 0`. -/
theorem C09_nonsymmetric_false : ∃ (A A' : Crs Int) (b' : List Int) (x : Nat → Int),
    BcMatrix A 2 1 ∧ applyConstraints serialSched [0] 1 A [0, 0] [0] [1] = Res.ok (A', b') ∧
    Solves 2 A'.dense (at0 b') x ∧
    ¬ ∑ j ∈ range 2, A.dense 1 j * x j = at0 [0, 0] 1 := by
  refine ⟨{ bcExample with vals := [1, 0, 5, 1] }, { bcExample with vals := [1, 0, 0, 1] }, [1, 0],
    fun i => if i = 0 then 1 else 0, ?_, rfl, ?_, ?_⟩
  · have h := C09_example
    exact ⟨wf_vals h.wf rfl, rfl, rfl, h.nodup, h.symm, h.diag⟩
  · intro i hi
    have : i = 0 ∨ i = 1 := by omega
    rcases this with rfl | rfl <;> decide
  · decide

/-- With a dof listed twice the result depends on the interleaving: both threads may subtract the
column before either clears it. -/
theorem C10_duplicate_dof_false : ∃ (s1 s2 : List (List (CMicro Int)) → List (Nat × CMicro Int)),
    (∀ p, IsMerge p (s1 p)) ∧ (∀ p, IsMerge p (s2 p)) ∧
    applyConstraints s1 [0, 1] 1 bcExample [5, 7] [0, 0] [2, 2] ≠
      applyConstraints s2 [0, 1] 1 bcExample [5, 7] [0, 0] [2, 2] := by
  let progs : List (List (CMicro Int)) :=
    [[.one 0, .load 1, .add 1 1 2, .zero 1, .zero 2], [.one 0, .load 1, .add 1 1 2, .zero 1, .zero 2]]
  let M : List (Nat × CMicro Int) := [(0, .one 0), (0, .load 1), (1, .one 0), (1, .load 1),
    (0, .add 1 1 2), (0, .zero 1), (0, .zero 2), (1, .add 1 1 2), (1, .zero 1), (1, .zero 2)]
  have hM : IsMerge progs M := by
    constructor
    · decide
    · intro t ht
      have : t = 0 ∨ t = 1 := by
        have : t < 2 := ht
        omega
      rcases this with rfl | rfl <;> rfl
  classical
  refine ⟨serialSched, fun p => if p = progs then M else serialSched p, serialSched_isMerge, ?_, ?_⟩
  · intro p
    by_cases hp : p = progs
    · simp only [hp, if_true]; exact hM
    · simp only [hp, if_false]; exact serialSched_isMerge p
  · have e1 : allThreads scalarThread 1 bcExample [0, 0] [2, 2] = Res.ok progs := rfl
    unfold applyConstraints applyConstraintsWith
    rw [e1]
    simp only [Res.ok_bind, if_true]
    have e2 : runMicro (serialSched progs)
        { vals := bcExample.vals, rhs := [5, 7], tmp := fun _ _ => 0 } ≠ Res.ub := by
      intro h; cases h
    intro h
    have r1 : ((runMicro (serialSched progs)
        { vals := bcExample.vals, rhs := [5, 7], tmp := fun _ _ => 0 }) >>= fun s =>
        (parFor [0, 1] s.rhs (setConstrainedRhs 1 [0, 0] [2, 2]) >>= fun b =>
          (pure ({ bcExample with vals := s.vals }, b) : Res (Crs Int × List Int)))) =
        Res.ok ({ bcExample with vals := [1, 0, 0, 3] }, [2, 9]) := rfl
    have r2 : ((runMicro M
        { vals := bcExample.vals, rhs := [5, 7], tmp := fun _ _ => 0 }) >>= fun s =>
        (parFor [0, 1] s.rhs (setConstrainedRhs 1 [0, 0] [2, 2]) >>= fun b =>
          (pure ({ bcExample with vals := s.vals }, b) : Res (Crs Int × List Int)))) =
        Res.ok ({ bcExample with vals := [1, 0, 0, 3] }, [2, 11]) := rfl
    rw [r1, r2] at h
    simp at h

end Plato
