import Verif.MeshMap.Transpose

/-!
# The last kernel of `createTranspose` under every interleaving
-/

namespace Plato

open Finset

variable {K : Type}

/-- Operations for one entry. -/
def tchunk (e : Nat) : List TMicro := [.fetch e, .setCol e, .setEnt e]

/-- The program of the thread of row `r`. -/
def tprog (A : SpMat K) (r : Nat) : List TMicro :=
  (List.range' (atN A.rowMap r) (atN A.rowMap (r + 1) - atN A.rowMap r)).flatMap tchunk

theorem transposeThreads_eq {A : SpMat K} {n : Nat} (h : A.WF n) :
    transposeThreads A = Res.ok ((List.range n).map (tprog A)) := by
  unfold transposeThreads
  rw [h.numRows_eq, forRange_append' (fun r => [tprog A r])]
  · rw [List.nil_append, Nat.sub_zero, ← List.range_eq_range', List.map_eq_flatMap]
  · intro r _ hr acc
    have hl := h.rowMap_length
    unfold transposeThread
    rw [rd_atN (by omega), Res.ok_bind, rd_atN (by omega), Res.ok_bind,
      forRange_append' tchunk]
    · rw [List.nil_append]; rfl
    · intro e _ _ acc; rfl

/-- What a thread that has executed `seen` may execute. -/
def TOk (seen : List TMicro) : TMicro → Prop
  | .fetch e => TMicro.fetch e ∉ seen
  | .setCol e => TMicro.fetch e ∈ seen
  | .setEnt e => TMicro.fetch e ∈ seen

def TOrdered : List TMicro → List TMicro → Prop
  | _, [] => True
  | seen, op :: rest => TOk seen op ∧ TOrdered (seen ++ [op]) rest

theorem tordered_append (seen l1 l2 : List TMicro) :
    TOrdered seen (l1 ++ l2) ↔ TOrdered seen l1 ∧ TOrdered (seen ++ l1) l2 := by
  induction l1 generalizing seen with
  | nil => simp [TOrdered]
  | cons op l1 ih =>
    simp only [List.cons_append, TOrdered, ih, and_assoc, List.append_assoc, List.nil_append]

theorem tprog_ordered (A : SpMat K) (r : Nat) : TOrdered [] (tprog A r) := by
  have key : ∀ len lo seen, (∀ e, lo ≤ e → TMicro.fetch e ∉ seen) →
      TOrdered seen ((List.range' lo len).flatMap tchunk) := by
    intro len
    induction len with
    | zero => intro lo seen _; trivial
    | succ len ih =>
      intro lo seen hs
      rw [List.range'_succ, List.flatMap_cons, tordered_append]
      refine ⟨⟨hs lo (Nat.le_refl _), by simp [TOk], by simp [TOk], trivial⟩, ih _ _ ?_⟩
      intro e he hmem
      rcases List.mem_append.1 hmem with h | h
      · exact hs e (by omega) h
      · simp [tchunk] at h; omega
  exact key _ _ [] (by simp)

theorem mem_tprog {A : SpMat K} {r : Nat} {op : TMicro} : op ∈ tprog A r ↔
    ∃ e, A.InRow e r ∧ op ∈ tchunk e := by
  unfold tprog SpMat.InRow
  rw [List.mem_flatMap]
  constructor
  · rintro ⟨e, he, h⟩
    rw [List.mem_range'_1] at he
    exact ⟨e, by omega, h⟩
  · rintro ⟨e, he, h⟩
    exact ⟨e, List.mem_range'_1.2 (by omega), h⟩

/-- An interleaving of the threads. -/
structure TRun (A : SpMat K) (n : Nat) (M : List (Nat × TMicro)) : Prop where
  row : ∀ t op, (t, op) ∈ M → t < n ∧ op ∈ tprog A t
  all : ∀ t op, t < n → op ∈ tprog A t → (t, op) ∈ M
  ord : ∀ t, TOrdered [] (tproj t M)
  total : ∀ f : TMicro → Nat, (M.map fun x => f x.2).sum =
    ∑ t ∈ range n, ((tprog A t).map f).sum

theorem IsInterleaving.tRun {A : SpMat K} {n : Nat} {M : List (Nat × TMicro)}
    (h : IsInterleaving ((List.range n).map (tprog A)) M) : TRun A n M := by
  have hp : ∀ t, t < n → tprog A t = tproj t M := by
    intro t ht
    have := h.2 t (by simpa using ht)
    rw [List.getElem?_map, List.getElem?_range ht] at this
    simpa using this
  refine ⟨?_, ?_, ?_, ?_⟩
  · intro t op hm
    have ht : t < n := by simpa using h.1 _ hm
    exact ⟨ht, by rw [hp t ht]; exact mem_tproj.2 hm⟩
  · intro t op ht hop
    rw [hp t ht] at hop
    exact mem_tproj.1 hop
  · intro t
    by_cases ht : t < n
    · rw [← hp t ht]; exact tprog_ordered A t
    · have : tproj t M = [] := by
        rw [List.eq_nil_iff_forall_not_mem]
        intro op hop
        have := h.1 _ (mem_tproj.1 hop)
        rw [List.length_map, List.length_range] at this
        exact ht this
      rw [this]; trivial
  · intro f
    rw [interleaving_sum h f, List.length_map, List.length_range]
    refine sum_congr rfl fun t ht => ?_
    rw [List.getD_eq_getElem?_getD, List.getElem?_map, List.getElem?_range (mem_range.1 ht)]
    rfl

/-- Counts fetches of column `c`. -/
def fetchOf (A : SpMat K) (c : Nat) : TMicro → Nat
  | .fetch e => if atN A.cols e = c then 1 else 0
  | _ => 0

theorem TRun.fetch_total {A : SpMat K} {n : Nat} {M : List (Nat × TMicro)} (hM : TRun A n M)
    (h : A.WF n) (c : Nat) : (M.map fun x => fetchOf A c x.2).sum = A.colCount c := by
  rw [hM.total, SpMat.colCount, ← h.sum_rows]
  refine sum_congr rfl fun t ht => ?_
  have := (h.row_le (mem_range.1 ht)).1
  unfold tprog
  rw [sum_flatMap]
  have e : ∀ e, ((tchunk e).map (fetchOf A c)).sum = if atN A.cols e = c then 1 else 0 := by
    intro e; simp [tchunk, fetchOf]
  simp only [e]
  rw [sum_range'_map, Nat.add_sub_cancel' this]

/-- The state after the operations `pre` of the interleaving. -/
structure TInv [Zero K] (A : SpMat K) (n : Nat) (pre : List (Nat × TMicro)) (s : TState K) :
    Prop where
  offs_length : s.offs.length = n
  colT_length : s.colT.length = A.cols.length
  entT_length : s.entT.length = A.cols.length
  offs : ∀ c, c < n → atN s.offs c = (pre.map fun x => fetchOf A c x.2).sum
  lt : ∀ t e, (t, TMicro.fetch e) ∈ pre → s.tmp t e < atN s.offs (atN A.cols e)
  inj : ∀ t e t' e', (t, TMicro.fetch e) ∈ pre → (t', TMicro.fetch e') ∈ pre →
    atN A.cols e = atN A.cols e' → s.tmp t e = s.tmp t' e' → t = t' ∧ e = e'
  col : ∀ t e, (t, TMicro.setCol e) ∈ pre → (t, TMicro.fetch e) ∈ pre ∧
    atN s.colT (A.colStart (atN A.cols e) + s.tmp t e) = t
  ent : ∀ t e, (t, TMicro.setEnt e) ∈ pre → (t, TMicro.fetch e) ∈ pre ∧
    at0 s.entT (A.colStart (atN A.cols e) + s.tmp t e) = at0 A.ents e

/-- Slots of different columns do not meet. -/
theorem slot_ne {A : SpMat K} {c c' p p' : Nat} (hp : p < A.colCount c) (hp' : p' < A.colCount c')
    (h : A.colStart c + p = A.colStart c' + p') : c = c' ∧ p = p' := by
  rcases Nat.lt_trichotomy c c' with hlt | heq | hlt
  · have := A.colStart_mono (c := c + 1) (d := c') hlt
    rw [A.colStart_succ] at this; omega
  · subst heq; exact ⟨rfl, by omega⟩
  · have := A.colStart_mono (c := c' + 1) (d := c) hlt
    rw [A.colStart_succ] at this; omega

theorem runTMicro_sat [Zero K] {A : SpMat K} {n : Nat} (h : A.WF n) {M : List (Nat × TMicro)}
    (hM : TRun A n M) {rT : List Nat} (hl : rT.length = n + 1)
    (hr : ∀ c, c < n + 1 → atN rT c = A.colStart c) {s0 : TState K} (h0 : TInv A n [] s0) :
    (runTMicro A rT M s0).Sat (TInv A n M) := by
  have key : ∀ (post pre : List (Nat × TMicro)) (s : TState K), M = pre ++ post → TInv A n pre s →
      (runTMicro A rT post s).Sat (TInv A n M) := by
    intro post
    induction post with
    | nil =>
      intro pre s hM' hinv
      rw [List.append_nil] at hM'
      subst hM'
      exact Res.Sat.ok hinv
    | cons x post ih =>
      intro pre s hM' hi
      obtain ⟨t, op⟩ := x
      have hmem : (t, op) ∈ M := by rw [hM']; simp
      have hpre : ∀ y ∈ pre, y ∈ M := fun y hy => by rw [hM']; simp [hy]
      have hok : TOk (tproj t pre) op := by
        have := hM.ord t
        rw [hM', tproj_append, tproj_cons_self, tordered_append, List.nil_append] at this
        exact this.2.1
      have hM2 : M = (pre ++ [(t, op)]) ++ post := by simp [hM']
      have hent : ∀ t e, (t, TMicro.fetch e) ∈ M → t < n ∧ e < A.cols.length := by
        intro t e hm
        obtain ⟨ht, hp⟩ := hM.row _ _ hm
        obtain ⟨e', he', hop⟩ := mem_tprog.1 hp
        simp [tchunk] at hop
        subst hop
        have := (h.row_le ht).2
        have := he'.2
        exact ⟨ht, by omega⟩
      have hoffs : ∀ c, c < n → atN s.offs c ≤ A.colCount c := by
        intro c hc
        rw [hi.offs c hc, ← hM.fetch_total h c, hM', List.map_append, List.sum_append]
        exact Nat.le_add_right _ _
      have hlt : ∀ t e, (t, TMicro.fetch e) ∈ pre → s.tmp t e < A.colCount (atN A.cols e) := by
        intro t e hm
        have h1 := hi.lt t e hm
        have h2 := hoffs (atN A.cols e) (h.cols_lt e (hent t e (hpre _ hm)).2)
        omega
      have hslot : ∀ t e, (t, TMicro.fetch e) ∈ pre →
          A.colStart (atN A.cols e) + s.tmp t e < A.cols.length := by
        intro t e hm
        have h1 := hlt t e hm
        have h2 := A.colStart_mono (c := atN A.cols e + 1) (d := n)
          (h.cols_lt e (hent t e (hpre _ hm)).2)
        rw [A.colStart_succ, h.colStart_last] at h2
        omega
      have step : (TMicro.exec A rT t op s).Sat (TInv A n (pre ++ [(t, op)])) := by
        have o1 := hi.offs_length
        have o2 := hi.colT_length
        have o3 := hi.entT_length
        cases op with
        | fetch e =>
          obtain ⟨ht, he⟩ := hent t e hmem
          have hc := h.cols_lt e he
          have hnew : (t, TMicro.fetch e) ∉ pre := fun hm => hok (mem_tproj.2 hm)
          simp only [TMicro.exec]
          rw [rd_atN he, Res.ok_bind, rd_atN (by omega), Res.ok_bind, wr_eq (by omega), Res.ok_bind]
          have hold : ∀ t' e', (t', TMicro.fetch e') ∈ pre → ¬ (t' = t ∧ e' = e) := by
            rintro t' e' hm ⟨rfl, rfl⟩
            exact hnew hm
          refine Res.Sat.ok ⟨by simpa using o1, o2, o3, ?_, ?_, ?_, ?_, ?_⟩
          · intro c hc'
            show atN (s.offs.set _ _) c = _
            rw [atN_set (by omega), List.map_append, List.sum_append]
            simp only [List.map_cons, List.map_nil, List.sum_cons, List.sum_nil, add_zero, fetchOf]
            by_cases hcc : c = atN A.cols e
            · have := hi.offs _ hc; subst hcc; simp [fetchOf] at this ⊢; omega
            · have := hi.offs _ hc'; simp [fetchOf, hcc, Ne.symm hcc] at this ⊢; omega
          · intro t' e' hm
            show (if t' = t ∧ e' = e then _ else _) < atN (s.offs.set _ _) _
            rw [atN_set (by omega)]
            rcases List.mem_append.1 hm with hm | hm
            · rw [if_neg (hold t' e' hm)]
              have := hi.lt t' e' hm
              split_ifs with hcc
              · rw [hcc] at this; omega
              · exact this
            · simp only [List.mem_singleton, Prod.mk.injEq, TMicro.fetch.injEq] at hm
              rw [if_pos hm, hm.2, if_pos rfl]
              omega
          · intro t1 e1 t2 e2 h1 h2 hcc htmp
            change (if t1 = t ∧ e1 = e then atN s.offs (atN A.cols e) else s.tmp t1 e1) =
              (if t2 = t ∧ e2 = e then atN s.offs (atN A.cols e) else s.tmp t2 e2) at htmp
            rcases List.mem_append.1 h1 with h1 | h1 <;> rcases List.mem_append.1 h2 with h2 | h2
            · rw [if_neg (hold _ _ h1), if_neg (hold _ _ h2)] at htmp
              exact hi.inj _ _ _ _ h1 h2 hcc htmp
            · simp only [List.mem_singleton, Prod.mk.injEq, TMicro.fetch.injEq] at h2
              rw [if_neg (hold _ _ h1), if_pos h2] at htmp
              have := hi.lt _ _ h1
              rw [hcc, h2.2] at this
              omega
            · simp only [List.mem_singleton, Prod.mk.injEq, TMicro.fetch.injEq] at h1
              rw [if_neg (hold _ _ h2), if_pos h1] at htmp
              have := hi.lt _ _ h2
              rw [← hcc, h1.2] at this
              omega
            · simp only [List.mem_singleton, Prod.mk.injEq, TMicro.fetch.injEq] at h1 h2
              exact ⟨h1.1.trans h2.1.symm, h1.2.trans h2.2.symm⟩
          · intro t' e' hm
            have hm' : (t', TMicro.setCol e') ∈ pre := by
              rcases List.mem_append.1 hm with hm | hm
              · exact hm
              · simp at hm
            obtain ⟨hf, hv⟩ := hi.col t' e' hm'
            refine ⟨by simp [hf], ?_⟩
            show atN s.colT (_ + if t' = t ∧ e' = e then _ else _) = _
            rw [if_neg (hold _ _ hf)]; exact hv
          · intro t' e' hm
            have hm' : (t', TMicro.setEnt e') ∈ pre := by
              rcases List.mem_append.1 hm with hm | hm
              · exact hm
              · simp at hm
            obtain ⟨hf, hv⟩ := hi.ent t' e' hm'
            refine ⟨by simp [hf], ?_⟩
            show at0 s.entT (_ + if t' = t ∧ e' = e then _ else _) = _
            rw [if_neg (hold _ _ hf)]; exact hv
        | setCol e =>
          have hf : (t, TMicro.fetch e) ∈ pre := mem_tproj.1 hok
          obtain ⟨ht, he⟩ := hent t e (hpre _ hf)
          have hc := h.cols_lt e he
          have hs := hslot t e hf
          simp only [TMicro.exec]
          rw [rd_atN he, Res.ok_bind, rd_atN (by omega), Res.ok_bind, hr _ (by omega),
            wr_eq (by omega), Res.ok_bind]
          have hfetch : ∀ t' e', (t', TMicro.fetch e') ∈ pre ++ [(t, TMicro.setCol e)] →
              (t', TMicro.fetch e') ∈ pre := by
            intro t' e' hm
            rcases List.mem_append.1 hm with hm | hm
            · exact hm
            · simp at hm
          refine Res.Sat.ok ⟨o1, by simpa using o2, o3, ?_, ?_, ?_, ?_, ?_⟩
          · intro c hc'
            rw [List.map_append, List.sum_append]
            simpa [fetchOf] using hi.offs c hc'
          · intro t' e' hm
            exact hi.lt t' e' (hfetch _ _ hm)
          · intro t1 e1 t2 e2 h1 h2
            exact hi.inj t1 e1 t2 e2 (hfetch _ _ h1) (hfetch _ _ h2)
          · intro t' e' hm
            show _ ∧ atN (s.colT.set _ _) _ = _
            rw [atN_set (by omega)]
            rcases List.mem_append.1 hm with hm | hm
            · obtain ⟨hf', hv⟩ := hi.col t' e' hm
              refine ⟨by simp [hf'], ?_⟩
              split_ifs with heq
              · obtain ⟨e1, e2⟩ := slot_ne (hlt _ _ hf') (hlt _ _ hf) heq
                exact (hi.inj _ _ _ _ hf' hf e1 e2).1.symm
              · exact hv
            · simp only [List.mem_singleton, Prod.mk.injEq, TMicro.setCol.injEq] at hm
              obtain ⟨rfl, rfl⟩ := hm
              exact ⟨by simp [hf], if_pos rfl⟩
          · intro t' e' hm
            have hm' : (t', TMicro.setEnt e') ∈ pre := by
              rcases List.mem_append.1 hm with hm | hm
              · exact hm
              · simp at hm
            obtain ⟨hf', hv⟩ := hi.ent t' e' hm'
            exact ⟨by simp [hf'], hv⟩
        | setEnt e =>
          have hf : (t, TMicro.fetch e) ∈ pre := mem_tproj.1 hok
          obtain ⟨ht, he⟩ := hent t e (hpre _ hf)
          have hc := h.cols_lt e he
          have hs := hslot t e hf
          have hl' := h.ents_length
          simp only [TMicro.exec]
          rw [rd_atN he, Res.ok_bind, rd_atN (by omega), Res.ok_bind, hr _ (by omega),
            rd_at0 (by omega), Res.ok_bind, wr_eq (by omega), Res.ok_bind]
          have hfetch : ∀ t' e', (t', TMicro.fetch e') ∈ pre ++ [(t, TMicro.setEnt e)] →
              (t', TMicro.fetch e') ∈ pre := by
            intro t' e' hm
            rcases List.mem_append.1 hm with hm | hm
            · exact hm
            · simp at hm
          refine Res.Sat.ok ⟨o1, o2, by simpa using o3, ?_, ?_, ?_, ?_, ?_⟩
          · intro c hc'
            rw [List.map_append, List.sum_append]
            simpa [fetchOf] using hi.offs c hc'
          · intro t' e' hm
            exact hi.lt t' e' (hfetch _ _ hm)
          · intro t1 e1 t2 e2 h1 h2
            exact hi.inj t1 e1 t2 e2 (hfetch _ _ h1) (hfetch _ _ h2)
          · intro t' e' hm
            have hm' : (t', TMicro.setCol e') ∈ pre := by
              rcases List.mem_append.1 hm with hm | hm
              · exact hm
              · simp at hm
            obtain ⟨hf', hv⟩ := hi.col t' e' hm'
            exact ⟨by simp [hf'], hv⟩
          · intro t' e' hm
            show _ ∧ at0 (s.entT.set _ _) _ = _
            rw [at0_set (by omega)]
            rcases List.mem_append.1 hm with hm | hm
            · obtain ⟨hf', hv⟩ := hi.ent t' e' hm
              refine ⟨by simp [hf'], ?_⟩
              split_ifs with heq
              · obtain ⟨e1, e2⟩ := slot_ne (hlt _ _ hf') (hlt _ _ hf) heq
                rw [(hi.inj _ _ _ _ hf' hf e1 e2).2]
              · exact hv
            · simp only [List.mem_singleton, Prod.mk.injEq, TMicro.setEnt.injEq] at hm
              obtain ⟨rfl, rfl⟩ := hm
              exact ⟨by simp [hf], if_pos rfl⟩
      unfold runTMicro
      exact step.bind fun s' hs' => ih _ _ hM2 hs'
  exact key M [] s0 rfl h0

end Plato
