import Mathlib.Algebra.Order.Ring.Rat
import Verif.MeshMap.Parent

/-!
# The map matrix (C18)
-/

namespace Plato

open Finset

variable {K : Type} [Field K]

/-- Component of a quadruple. -/
def wcomp (w : K × K × K × K) : Nat → K
  | 0 => w.1
  | 1 => w.2.1
  | 2 => w.2.2.1
  | _ => w.2.2.2

/-- Row `r` of the matrix is the row of a node with parent `p`. -/
def RowOf (m : MapMesh K) (M : Pts K) (A : SpMat K) (r : Nat) : Parent → Prop
  | .unmapped => atN A.rowMap (r + 1) = atN A.rowMap r + 1 ∧ atN A.cols (atN A.rowMap r) = r ∧
      at0 A.ents (atN A.rowMap r) = 1
  | .notFound => False
  | .elem e => atN A.rowMap (r + 1) = atN A.rowMap r + 4 ∧ ∀ j, j < 4 →
      atN A.cols (atN A.rowMap r + j) = m.vert e j ∧
      at0 A.ents (atN A.rowMap r + j) = wcomp (m.weights M r e) j

/-- Number of entries of a row. -/
def Parent.count : Parent → Nat
  | .notFound => 0
  | .unmapped => 1
  | .elem _ => 4

/-- Parent of a row. -/
def parentOf (parents : List Parent) (r : Nat) : Parent := parents.getD r .notFound

theorem rd_parent {parents : List Parent} {r : Nat} (h : r < parents.length) :
    rd parents r = Res.ok (parentOf parents r) := by
  rw [rd_eq h, parentOf]
  simp [h]

theorem counts_rowMap {n : Nat} {parents : List Parent} (hp : parents.length = n) {o1 : List Nat}
    (ho1 : IsSchedule o1 n) :
    (parFor o1 (List.replicate (n + 1) 0) (mapCount parents)).Sat fun rm =>
      (rm.length = n + 1 ∧ atN rm n = 0) ∧ ∀ r, r < n → atN rm r = (parentOf parents r).count := by
  refine parFor_posts ho1 (fun rm : List Nat => rm.length = n + 1 ∧ atN rm n = 0)
    (fun r rm => atN rm r = (parentOf parents r).count) ⟨by simp, ?_⟩ ?_
  · show at0 _ n = 0
    rw [at0_eq (by simp)]; simp
  · rintro r rm hr ⟨hl, h0⟩
    unfold mapCount
    rw [rd_parent (by omega), Res.ok_bind]
    have key : (wr rm r (parentOf parents r).count).Sat fun s' =>
        (s'.length = n + 1 ∧ atN s' n = 0) ∧ atN s' r = (parentOf parents r).count ∧
        ∀ j, j < n → j ≠ r → atN rm j = (parentOf parents j).count →
          atN s' j = (parentOf parents j).count := by
      rw [wr_eq (by omega)]
      refine Res.Sat.ok ⟨⟨by simpa using hl, ?_⟩, ?_, ?_⟩
      · rw [atN_set (by omega), if_neg (by omega), h0]
      · rw [atN_set (by omega), if_pos rfl]
      · intro j hj hjr h
        rw [atN_set (by omega), if_neg hjr, h]
    cases hpar : parentOf parents r <;> rw [hpar] at key <;> exact key

/-- The row kernel. -/
theorem mapRow_sat {m : MapMesh K} {nv ne : Nat} (h : m.WF nv ne) {M : Pts K} (hM : M.Len nv)
    {parents : List Parent} (hp : parents.length = nv) {rowMap : List Nat}
    (hrl : rowMap.length = nv + 1) {N r : Nat} (hr : r < nv)
    (hnf : parentOf parents r ≠ Parent.notFound)
    (hel : ∀ e, parentOf parents r = Parent.elem e → e < ne)
    (hN : atN rowMap r + (parentOf parents r).count ≤ N) {s : ColEnt K} (hc : s.1.length = N)
    (he : s.2.length = N) :
    (mapRow m M parents rowMap r s).Sat fun s' => s'.1.length = N ∧ s'.2.length = N ∧
      (∀ k, ¬ (atN rowMap r ≤ k ∧ k < atN rowMap r + (parentOf parents r).count) →
        atN s'.1 k = atN s.1 k ∧ at0 s'.2 k = at0 s.2 k) ∧
      match parentOf parents r with
      | .unmapped => atN s'.1 (atN rowMap r) = r ∧ at0 s'.2 (atN rowMap r) = 1
      | .notFound => False
      | .elem e => ∀ j, j < 4 → atN s'.1 (atN rowMap r + j) = m.vert e j ∧
          at0 s'.2 (atN rowMap r + j) = wcomp (m.weights M r e) j := by
  unfold mapRow
  rw [rd_atN (by omega), Res.ok_bind, rd_parent (by omega), Res.ok_bind]
  generalize atN rowMap r = i at *
  cases hpar : parentOf parents r with
  | notFound => exact absurd hpar hnf
  | unmapped =>
    rw [hpar] at hN
    simp only [Parent.count] at hN ⊢
    rw [wr_eq (by omega), Res.ok_bind, wr_eq (by omega), Res.ok_bind]
    refine Res.Sat.ok ⟨by simpa using hc, by simpa using he, ?_, ?_⟩
    · intro k hk
      show atN (s.1.set i r) k = _ ∧ at0 (s.2.set i 1) k = _
      rw [atN_set (by omega), at0_set (by omega), if_neg (by omega), if_neg (by omega)]
      exact ⟨rfl, rfl⟩
    · show atN (s.1.set i r) i = _ ∧ at0 (s.2.set i 1) i = _
      rw [atN_set (by omega), at0_set (by omega), if_pos rfl, if_pos rfl]
      exact ⟨rfl, rfl⟩
  | elem e =>
    rw [hpar] at hN
    simp only [Parent.count] at hN ⊢
    rw [elemBasis_eq h hM hr (hel e hpar), Res.ok_bind]
    simp only
    rw [wr_eq (by omega), Res.ok_bind, wr_eq (by simp; omega), Res.ok_bind,
      wr_eq (by simp; omega), Res.ok_bind, wr_eq (by simp; omega), Res.ok_bind,
      wr_eq (by omega), Res.ok_bind, wr_eq (by simp; omega), Res.ok_bind,
      wr_eq (by simp; omega), Res.ok_bind, wr_eq (by simp; omega), Res.ok_bind]
    have hcs : ∀ k, atN ((((s.1.set i (m.vert e 0)).set (i + 1) (m.vert e 1)).set (i + 2)
        (m.vert e 2)).set (i + 3) (m.vert e 3)) k = if k = i + 3 then m.vert e 3 else
        if k = i + 2 then m.vert e 2 else if k = i + 1 then m.vert e 1 else
        if k = i then m.vert e 0 else atN s.1 k := by
      intro k
      rw [atN_set (by simp; omega), atN_set (by simp; omega), atN_set (by simp; omega),
        atN_set (by omega)]
    have hes : ∀ k, at0 ((((s.2.set i (m.weights M r e).1).set (i + 1) (m.weights M r e).2.1).set
        (i + 2) (m.weights M r e).2.2.1).set (i + 3) (m.weights M r e).2.2.2) k =
        if k = i + 3 then (m.weights M r e).2.2.2 else
        if k = i + 2 then (m.weights M r e).2.2.1 else if k = i + 1 then (m.weights M r e).2.1 else
        if k = i then (m.weights M r e).1 else at0 s.2 k := by
      intro k
      rw [at0_set (by simp; omega), at0_set (by simp; omega), at0_set (by simp; omega),
        at0_set (by omega)]
    refine Res.Sat.ok ⟨by simpa using hc, by simpa using he, ?_, ?_⟩
    · intro k hk
      refine ⟨(hcs k).trans ?_, (hes k).trans ?_⟩
      · rw [if_neg (by omega), if_neg (by omega), if_neg (by omega), if_neg (by omega)]
      · rw [if_neg (by omega), if_neg (by omega), if_neg (by omega), if_neg (by omega)]
    · intro j hj
      refine ⟨(hcs _).trans ?_, (hes _).trans ?_⟩
      · interval_cases j <;> simp
      · interval_cases j <;> simp [wcomp]

/-- **C18**, matrix values: when every node is unmoved or has a parent element, the matrix has
consistent extents, the row of an unmoved node is the identity row, and the row of a mapped node
holds the vertices and the weights of its parent element. -/
theorem C18_matrix {m : MapMesh K} {nv ne : Nat} (h : m.WF nv ne) {M : Pts K} (hM : M.Len nv)
    {parents : List Parent} (hp : parents.length = nv)
    (hnf : ∀ r, r < nv → parentOf parents r ≠ Parent.notFound)
    (hel : ∀ r e, r < nv → parentOf parents r = Parent.elem e → e < ne) {o1 o2 : List Nat}
    (ho1 : IsSchedule o1 nv) (ho2 : IsSchedule o2 nv) :
    (setMatrixValues o1 o2 m nv parents M).Sat fun A => A.WF nv ∧
      ∀ r, r < nv → RowOf m M A r (parentOf parents r) := by
  unfold setMatrixValues
  refine (counts_rowMap hp ho1).bind ?_
  rintro rm ⟨⟨hl, h0⟩, hrm⟩
  refine (scan_sat nv rm hl).bind ?_
  rintro ⟨rowMap, tot⟩ ⟨hrl, hr, ht⟩
  have hrl : rowMap.length = nv + 1 := hrl
  have hr : ∀ c, c < nv + 1 → atN rowMap c = ∑ i ∈ range c, atN rm i := hr
  have hstep : ∀ r, r < nv → atN rowMap (r + 1) = atN rowMap r + (parentOf parents r).count := by
    intro r hrn
    rw [hr r (by omega), hr (r + 1) (by omega), sum_range_succ, hrm r hrn]
  have hmono : ∀ i j, i ≤ j → j ≤ nv → atN rowMap i ≤ atN rowMap j := by
    intro i j hij hj
    rw [hr i (by omega), hr j (by omega)]
    exact sum_le_sum_of_subset (range_subset_range.2 hij)
  have hlast : atN rowMap nv = tot := by
    have : tot = _ := ht
    rw [this, sum_range_succ, h0, hr nv (by omega)]
    rfl
  refine (parFor_posts ho2
    (fun s : ColEnt K => s.1.length = tot ∧ s.2.length = tot)
    (fun r s => match parentOf parents r with
      | .unmapped => atN s.1 (atN rowMap r) = r ∧ at0 s.2 (atN rowMap r) = 1
      | .notFound => False
      | .elem e => ∀ j, j < 4 → atN s.1 (atN rowMap r + j) = m.vert e j ∧
          at0 s.2 (atN rowMap r + j) = wcomp (m.weights M r e) j)
    ⟨by simp, by simp⟩ ?_).bind ?_
  · rintro r s hrn ⟨h1, h2⟩
    refine (mapRow_sat h hM hp hrl hrn (hnf r hrn) (fun e => hel r e hrn) (N := tot) ?_ h1 h2).mono ?_
    · rw [← hstep r hrn, ← hlast]; exact hmono _ _ (by omega) (Nat.le_refl _)
    rintro s' ⟨g1, g2, g3, g4⟩
    refine ⟨⟨g1, g2⟩, g4, ?_⟩
    intro j hj hjr hpost
    have hout : ∀ k, atN rowMap j ≤ k → k < atN rowMap j + (parentOf parents j).count →
        atN s'.1 k = atN s.1 k ∧ at0 s'.2 k = at0 s.2 k := by
      intro k hk1 hk2
      apply g3
      rw [← hstep r hrn]
      rw [← hstep j hj] at hk2
      rcases Nat.lt_or_gt_of_ne hjr with hlt | hlt
      · have := hmono (j + 1) r hlt (by omega); omega
      · have := hmono (r + 1) j hlt (by omega); omega
    cases hpar : parentOf parents j with
    | notFound => exact absurd hpar (hnf j hj)
    | unmapped =>
      rw [hpar] at hpost hout
      simp only [Parent.count] at hpost hout ⊢
      rw [(hout _ (Nat.le_refl _) (by omega)).1, (hout _ (Nat.le_refl _) (by omega)).2]
      exact hpost
    | elem e =>
      rw [hpar] at hpost hout
      simp only [Parent.count] at hpost hout ⊢
      intro i hi
      rw [(hout _ (by omega) (by omega)).1, (hout _ (by omega) (by omega)).2]
      exact hpost i hi
  rintro ⟨cs, es⟩ ⟨⟨h1, h2⟩, hk⟩
  simp only at h1 h2 hk
  refine Res.Sat.ok ⟨⟨hrl, ?_, ?_, ?_, ?_, ?_, rfl, rfl⟩, ?_⟩
  · rw [hr 0 (by omega)]; rfl
  · intro i hi; exact hmono _ _ (by omega) (by omega)
  · exact hlast.trans h1.symm
  · exact h2.trans h1.symm
  · intro k hkl
    have hkl : k < tot := by rw [← h1]; exact hkl
    obtain ⟨r, hr1, hr2, hr3⟩ := locate (atN rowMap) nv k
      (by rw [hr 0 (by omega)]; simp) (by rw [hlast]; exact hkl)
    show atN cs k < nv
    have hpost := hk r hr1
    rw [hstep r hr1] at hr3
    cases hpar : parentOf parents r with
    | notFound => exact absurd hpar (hnf r hr1)
    | unmapped =>
      rw [hpar] at hpost hr3
      simp only [Parent.count] at hpost hr3
      have : k = atN rowMap r := by omega
      rw [this, hpost.1]; exact hr1
    | elem e =>
      rw [hpar] at hpost hr3
      simp only [Parent.count] at hpost hr3
      have := hpost (k - atN rowMap r) (by omega)
      rw [show k = atN rowMap r + (k - atN rowMap r) by omega, this.1]
      have := hel r e hr1 hpar
      exact h.c2n_lt _ (by omega)
  · intro r hrn
    have hpost := hk r hrn
    have hs := hstep r hrn
    cases hpar : parentOf parents r with
    | notFound => exact absurd hpar (hnf r hrn)
    | unmapped => rw [hpar] at hpost hs; exact ⟨hs, hpost⟩
    | elem e => rw [hpar] at hpost hs; exact ⟨hs, hpost⟩

/-- A computation which does not throw. -/
def NoErr {α : Type} (r : Res α) : Prop := ∀ msg, r ≠ Res.err msg

theorem NoErr.bind {α β : Type} {r : Res α} {f : α → Res β} (h : NoErr r) (hf : ∀ a, NoErr (f a)) :
    NoErr (r >>= f) := by
  intro msg
  rcases r with a | m | _
  · exact hf a msg
  · exact absurd rfl (h m)
  · intro h; cases h

theorem noErr_ok {α : Type} (a : α) : NoErr (Res.ok a) := by intro m h; cases h

theorem noErr_rd {α : Type} (v : List α) (i : Nat) : NoErr (rd v i) := by
  intro m h
  unfold rd at h
  split at h <;> cases h

theorem noErr_wr {α : Type} (v : List α) (i : Nat) (a : α) : NoErr (wr v i a) := by
  intro m h
  unfold wr at h
  split at h <;> cases h

theorem mapRow_noErr (m : MapMesh K) (M : Pts K) (parents : List Parent) (rowMap : List Nat)
    (r : Nat) (s : ColEnt K) : NoErr (mapRow m M parents rowMap r s) := by
  have hb : ∀ e, NoErr (elemBasis m M r e) := by
    intro e
    have hp : ∀ i, NoErr (m.point i) := fun i =>
      (noErr_rd _ _).bind fun _ => (noErr_rd _ _).bind fun _ => (noErr_rd _ _).bind fun _ =>
        noErr_ok _
    have hv : NoErr (m.verts e) :=
      (noErr_rd _ _).bind fun _ => (noErr_rd _ _).bind fun _ => (noErr_rd _ _).bind fun _ =>
        (noErr_rd _ _).bind fun _ => noErr_ok _
    exact (noErr_rd _ _).bind fun _ => (noErr_rd _ _).bind fun _ => (noErr_rd _ _).bind fun _ =>
      hv.bind fun _ => (hp _).bind fun _ => (hp _).bind fun _ => (hp _).bind fun _ =>
      (hp _).bind fun _ => noErr_ok _
  refine (noErr_rd _ _).bind fun i => (noErr_rd _ _).bind fun p => ?_
  cases p with
  | unmapped => exact (noErr_wr _ _ _).bind fun _ => (noErr_wr _ _ _).bind fun _ => noErr_ok _
  | notFound => intro m h; cases h
  | elem e =>
    exact (hb e).bind fun _ => (noErr_wr _ _ _).bind fun _ => (noErr_wr _ _ _).bind fun _ =>
      (noErr_wr _ _ _).bind fun _ => (noErr_wr _ _ _).bind fun _ => (noErr_wr _ _ _).bind fun _ =>
      (noErr_wr _ _ _).bind fun _ => (noErr_wr _ _ _).bind fun _ => (noErr_wr _ _ _).bind fun _ =>
      noErr_ok _

/-- **C18**, a node without parent: for all schedules the construction reads outside the
connectivity; nothing is reported. -/
theorem C18_not_found_ub {m : MapMesh K} {nv : Nat} {M : Pts K} {parents : List Parent}
    (hp : parents.length = nv) {r : Nat} (hr : r < nv)
    (hnf : parentOf parents r = Parent.notFound) {o1 o2 : List Nat} (ho1 : IsSchedule o1 nv)
    (ho2 : IsSchedule o2 nv) : setMatrixValues o1 o2 m nv parents M = Res.ub := by
  obtain ⟨rm, hrm, ⟨hl, -⟩, -⟩ := counts_rowMap hp ho1
  obtain ⟨⟨rowMap, tot⟩, hsc, hrl, -, -⟩ := scan_sat nv rm hl
  have hrl : rowMap.length = nv + 1 := hrl
  unfold setMatrixValues
  rw [hrm, Res.ok_bind, hsc, Res.ok_bind, blas1.parFor_ub]
  · rfl
  · refine ⟨r, ho2.mem_iff.2 (List.mem_range.2 hr), ?_⟩
    intro s
    unfold mapRow
    rw [rd_atN (by show r < rowMap.length; omega), Res.ok_bind, rd_parent (by omega), Res.ok_bind, hnf]
  · intro i s
    exact mapRow_noErr m M parents rowMap i s

section order

variable [LinearOrder K]

theorem findParents_sat {m : MapMesh K} {nv ne : Nat} (h : m.WF nv ne) {L M : Pts K}
    (hL : L.Len nv) (hM : M.Len nv) (notFound : K) {cands : Nat → List Nat}
    (hc : ∀ r, r < nv → ∀ e ∈ cands r, e < ne) {o : List Nat} (ho : IsSchedule o nv) :
    (findParents o m notFound L M cands nv).Sat fun ps => ps.length = nv ∧ ∀ r, r < nv →
      parentOf ps r = if L.pt r = M.pt r then Parent.unmapped
        else match lastGood m notFound M r (cands r) with
          | some e => Parent.elem e
          | none => Parent.notFound := by
  refine parFor_posts ho (fun ps : List Parent => ps.length = nv)
    (fun r ps => parentOf ps r = if L.pt r = M.pt r then Parent.unmapped
        else match lastGood m notFound M r (cands r) with
          | some e => Parent.elem e
          | none => Parent.notFound) (by simp) ?_
  intro r ps hr hl
  rw [C18_selected h hL hM notFound (hc r hr) hr, Res.ok_bind, wr_eq (by omega)]
  refine Res.Sat.ok ⟨by simpa using hl, ?_, ?_⟩
  · unfold parentOf
    rw [List.getD_eq_getElem?_getD, List.getElem?_set_self (by omega)]
    rfl
  · intro j hj hjr hpost
    rw [← hpost]
    unfold parentOf
    rw [List.getD_eq_getElem?_getD, List.getElem?_set_ne (Ne.symm hjr), ← List.getD_eq_getElem?_getD]

variable [IsStrictOrderedRing K]

/-- A containing element passes the test of the search. -/
theorem inTet_good {m : MapMesh K} {M : Pts K} {r e : Nat} {notFound : K} (hnf : notFound < 0)
    (hv : tetVol (m.corner e 0) (m.corner e 1) (m.corner e 2) (m.corner e 3) ≠ 0)
    (hin : InTet (M.pt r) (m.corner e 0) (m.corner e 1) (m.corner e 2) (m.corner e 3)) :
    NonnegW (m.weights M r e) ∧ notFound < minBasis (m.weights M r e) := by
  obtain ⟨w, hb, hw⟩ := hin
  have : m.weights M r e = w := (basisAt_bary hv).unique hv hb
  rw [this]
  refine ⟨hw, (lt_minBasis w).2 ?_⟩
  obtain ⟨h0, h1, h2, h3⟩ := hw
  exact ⟨hnf.trans_le h0, hnf.trans_le h1, hnf.trans_le h2, hnf.trans_le h3⟩

/-- **C18**, what holds.  For every mesh, every map, every sentinel below zero and all schedules: if
for every moved node some candidate `e` with non-zero volume contains the image and no candidate
after it passes the sentinel test, then the matrix is built, rows of unmoved nodes are identity
rows, and the row of a moved node holds the vertices of `e` with nonnegative weights that are the
barycentric coordinates of the image in `e`.

Missing with respect to the full claim: later candidates which do not contain the image
(`C18_false`: the last candidate is taken, not the best one) and nodes without a containing element
(`C18_not_found_ub`: nothing is reported). -/
theorem C18_map_partial {m : MapMesh K} {nv ne : Nat} (h : m.WF nv ne) {L M : Pts K}
    (hL : L.Len nv) (hM : M.Len nv) {notFound : K} (hneg : notFound < 0) {cands : Nat → List Nat}
    (hc : ∀ r, r < nv → ∀ e ∈ cands r, e < ne) {parent : Nat → Nat}
    (hin : ∀ r, r < nv → L.pt r ≠ M.pt r →
      tetVol (m.corner (parent r) 0) (m.corner (parent r) 1) (m.corner (parent r) 2)
        (m.corner (parent r) 3) ≠ 0 ∧
      InTet (M.pt r) (m.corner (parent r) 0) (m.corner (parent r) 1) (m.corner (parent r) 2)
        (m.corner (parent r) 3) ∧
      ∃ pre post, cands r = pre ++ parent r :: post ∧
        ∀ e ∈ post, minBasis (m.weights M r e) ≤ notFound)
    {o o1 o2 : List Nat} (ho : IsSchedule o nv) (ho1 : IsSchedule o1 nv) (ho2 : IsSchedule o2 nv) :
    (mapMatrix o o1 o2 m notFound L M cands nv).Sat fun A => A.WF nv ∧
      ∀ r, r < nv →
        (L.pt r = M.pt r → atN A.rowMap (r + 1) = atN A.rowMap r + 1 ∧
          atN A.cols (atN A.rowMap r) = r ∧ at0 A.ents (atN A.rowMap r) = 1) ∧
        (L.pt r ≠ M.pt r → ∃ w, IsBary (M.pt r) (m.corner (parent r) 0) (m.corner (parent r) 1)
            (m.corner (parent r) 2) (m.corner (parent r) 3) w ∧ NonnegW w ∧
          atN A.rowMap (r + 1) = atN A.rowMap r + 4 ∧ ∀ j, j < 4 →
            atN A.cols (atN A.rowMap r + j) = m.vert (parent r) j ∧
            at0 A.ents (atN A.rowMap r + j) = wcomp w j) := by
  have hlast : ∀ r, r < nv → L.pt r ≠ M.pt r →
      lastGood m notFound M r (cands r) = some (parent r) := by
    intro r hr hne
    obtain ⟨hv, ht, pre, post, hcs, hpost⟩ := hin r hr hne
    unfold lastGood
    have hnil : post.filter (fun e => decide (notFound < minBasis (m.weights M r e))) = [] :=
      List.filter_eq_nil_iff.2 fun e he => by simpa using hpost e he
    rw [hcs, List.filter_append, List.filter_cons_of_pos (by simpa using (inTet_good hneg hv ht).2),
      hnil]
    simp
  unfold mapMatrix
  refine (findParents_sat h hL hM notFound hc ho).bind ?_
  rintro ps ⟨hpl, hps⟩
  have hps' : ∀ r, r < nv → parentOf ps r = if L.pt r = M.pt r then Parent.unmapped
      else Parent.elem (parent r) := by
    intro r hr
    rw [hps r hr]
    by_cases hne : L.pt r = M.pt r
    · rw [if_pos hne, if_pos hne]
    · rw [if_neg hne, if_neg hne, hlast r hr hne]
  refine (C18_matrix h hM hpl ?_ ?_ ho1 ho2).mono ?_
  · intro r hr
    rw [hps' r hr]
    split_ifs <;> simp
  · intro r e hr he
    rw [hps' r hr] at he
    split_ifs at he with hne
    simp only [Parent.elem.injEq] at he
    subst he
    obtain ⟨-, -, pre, post, hcs, -⟩ := hin r hr hne
    exact hc r hr _ (by rw [hcs]; simp)
  · rintro A ⟨hA, hrow⟩
    refine ⟨hA, ?_⟩
    intro r hr
    have := hrow r hr
    rw [hps' r hr] at this
    constructor
    · intro he
      rw [if_pos he] at this
      exact this
    · intro hne
      rw [if_neg hne] at this
      obtain ⟨hv, ht, -⟩ := hin r hr hne
      exact ⟨_, basisAt_bary hv, (inTet_good hneg hv ht).1, this⟩

end order

/-! ## A wrong parent -/

/-- Two tetrahedra with a common face; node 5 is not part of them. -/
def exMesh : MapMesh Rat :=
  ⟨[0, 1, 2, 3, 4, 1, 2, 3],
   [0, 0, 0, 1, 0, 0, 0, 1, 0, 0, 0, 1, 1, 1, 1, -1 / 4, 1 / 4, 1 / 4]⟩

/-- Locations of the nodes. -/
def exLoc : Pts Rat := ⟨[0, 1, 0, 0, 1, -1 / 4], [0, 0, 1, 0, 1, 1 / 4], [0, 0, 0, 1, 1, 1 / 4]⟩

/-- Images under the symmetry plane `x = 0`: only node 5 moves. -/
def exImg : Pts Rat := ⟨[0, 1, 0, 0, 1, 1 / 4], [0, 0, 1, 0, 1, 1 / 4], [0, 0, 0, 1, 1, 1 / 4]⟩

theorem exMesh_wf : exMesh.WF 6 2 := by
  refine ⟨rfl, ?_, rfl⟩
  intro k hk
  interval_cases k <;> decide

/-- The images are those of the plane `x = 0` with normal `(1,0,0)`. -/
theorem exImg_plane : ∀ r, r < 6 →
    Plane.map ⟨(0, 0, 0), (1, 0, 0)⟩ (exLoc.pt r) = exImg.pt r := by
  intro r hr
  interval_cases r <;> norm_num [Plane.map, Pts.pt, exLoc, exImg, at0]

/-- **C18** is false: with candidates `[0, 1]` (both boxes contain the image) the parent of node 5
is element 1, which does not contain the image, although element 0 does; the row of the matrix has
a negative weight. -/
theorem C18_false :
    findParent exMesh (-100000000) exLoc exImg [0, 1] 5 = Res.ok (Parent.elem 1) ∧
    InTet (exImg.pt 5) (exMesh.corner 0 0) (exMesh.corner 0 1) (exMesh.corner 0 2)
      (exMesh.corner 0 3) ∧
    ¬ InTet (exImg.pt 5) (exMesh.corner 1 0) (exMesh.corner 1 1) (exMesh.corner 1 2)
      (exMesh.corner 1 3) ∧
    minBasis (exMesh.weights exImg 5 1) < 0 ∧ 0 < minBasis (exMesh.weights exImg 5 0) := by
  have hp : exImg.pt 5 = (1 / 4, 1 / 4, 1 / 4) := by norm_num [Pts.pt, exImg, at0]
  have c00 : exMesh.corner 0 0 = (0, 0, 0) := by
    norm_num [MapMesh.corner, MapMesh.pt, MapMesh.vert, exMesh, at0, atN]
  have c01 : exMesh.corner 0 1 = (1, 0, 0) := by
    norm_num [MapMesh.corner, MapMesh.pt, MapMesh.vert, exMesh, at0, atN]
  have c02 : exMesh.corner 0 2 = (0, 1, 0) := by
    norm_num [MapMesh.corner, MapMesh.pt, MapMesh.vert, exMesh, at0, atN]
  have c03 : exMesh.corner 0 3 = (0, 0, 1) := by
    norm_num [MapMesh.corner, MapMesh.pt, MapMesh.vert, exMesh, at0, atN]
  have c10 : exMesh.corner 1 0 = (1, 1, 1) := by
    norm_num [MapMesh.corner, MapMesh.pt, MapMesh.vert, exMesh, at0, atN]
  have c11 : exMesh.corner 1 1 = (1, 0, 0) := by
    norm_num [MapMesh.corner, MapMesh.pt, MapMesh.vert, exMesh, at0, atN]
  have c12 : exMesh.corner 1 2 = (0, 1, 0) := by
    norm_num [MapMesh.corner, MapMesh.pt, MapMesh.vert, exMesh, at0, atN]
  have c13 : exMesh.corner 1 3 = (0, 0, 1) := by
    norm_num [MapMesh.corner, MapMesh.pt, MapMesh.vert, exMesh, at0, atN]
  have w0 : exMesh.weights exImg 5 0 = (1 / 4, 1 / 4, 1 / 4, 1 / 4) := by
    rw [MapMesh.weights, hp, c00, c01, c02, c03]
    norm_num [basisAt, getBasis]
  have w1 : exMesh.weights exImg 5 1 = (-1 / 8, 3 / 8, 3 / 8, 3 / 8) := by
    rw [MapMesh.weights, hp, c10, c11, c12, c13]
    norm_num [basisAt, getBasis]
  refine ⟨?_, ?_, ?_, ?_, ?_⟩
  · rw [C18_selected exMesh_wf (L := exLoc) (M := exImg) ⟨rfl, rfl, rfl⟩ ⟨rfl, rfl, rfl⟩
      (-100000000) (by decide) (by decide), if_neg]
    · have : lastGood exMesh (-100000000) exImg 5 [0, 1] = some 1 := by
        unfold lastGood
        simp only [List.filter_cons, w0, w1]
        norm_num [minBasis]
      rw [this]
    · norm_num [Pts.pt, exLoc, exImg, at0]
  · rw [hp, c00, c01, c02, c03]
    exact ⟨(1 / 4, 1 / 4, 1 / 4, 1 / 4), by norm_num [IsBary], by norm_num [NonnegW]⟩
  · rw [hp, c10, c11, c12, c13]
    rintro ⟨⟨a, b, c, d⟩, ⟨h1, h2, h3, h4⟩, h0, -⟩
    simp only at h1 h2 h3 h4 h0
    linarith
  · rw [w1]; norm_num [minBasis]
  · rw [w0]; norm_num [minBasis]

/-- The hypotheses of `C18_map_partial` are met by the same mesh when the containing element comes
last. -/
example : ∃ A, mapMatrix [0, 1, 2, 3, 4, 5] [5, 4, 3, 2, 1, 0] [0, 1, 2, 3, 4, 5] exMesh (-100000000)
    exLoc exImg (fun _ => [1, 0]) 6 = Res.ok A ∧ A.WF 6 := by
  obtain ⟨A, hA, hWF, -⟩ := C18_map_partial exMesh_wf (L := exLoc) (M := exImg) ⟨rfl, rfl, rfl⟩
    ⟨rfl, rfl, rfl⟩ (notFound := -100000000) (by norm_num) (cands := fun _ => [1, 0])
    (parent := fun _ => 0) (by intro r _; decide) (by
      intro r hr hne
      have h5 : r = 5 := by
        by_contra h5
        apply hne
        interval_cases r <;> first | rfl | exact absurd rfl h5
      subst h5
      refine ⟨by norm_num [tetVol, MapMesh.corner, MapMesh.pt, MapMesh.vert, exMesh, at0, atN],
        C18_false.2.1, [1], [], rfl, by simp⟩)
    (o := [0, 1, 2, 3, 4, 5]) (o1 := [5, 4, 3, 2, 1, 0]) (o2 := [0, 1, 2, 3, 4, 5])
    (by unfold IsSchedule; decide) (by unfold IsSchedule; decide) (by unfold IsSchedule; decide)
  exact ⟨A, hA, hWF⟩

end Plato
