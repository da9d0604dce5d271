import Verif.Bnd.Kernel

/-!
# C48: every interleaving of the loads and stores of the faces

A place that only one face adds to receives exactly what that face adds, in every interleaving.  If two
faces add to the same place, an interleaving may lose one of the additions (`C48_race_false`).
-/

namespace Plato.Bnd
open Finset Plato Plato.Mech

variable {R : Type} [CommRing R]

omit [CommRing R] in
theorem threadOps_self (t : Nat) (op : AMicro R) (M : List (Nat × AMicro R)) :
    threadOps t ((t, op) :: M) = op :: threadOps t M := by simp [threadOps]

omit [CommRing R] in
theorem threadOps_ne {t t' : Nat} (h : t' ≠ t) (op : AMicro R) (M : List (Nat × AMicro R)) :
    threadOps t ((t', op) :: M) = threadOps t M := by simp [threadOps, h]

omit [CommRing R] in
theorem mem_threadOps {t : Nat} {op : AMicro R} {M : List (Nat × AMicro R)} :
    op ∈ threadOps t M ↔ (t, op) ∈ M := by
  unfold threadOps
  rw [List.mem_map]
  constructor
  · rintro ⟨⟨t', op'⟩, h, rfl⟩
    simp at h
    obtain ⟨h1, rfl⟩ := h
    exact h1
  · intro h
    exact ⟨(t, op), by simpa using h, rfl⟩

/-- The place of an operation. -/
def AMicro.place : AMicro R → Nat × Nat
  | .load p => p
  | .store p _ => p

/-- What the rest of a thread may look like in state `s`: between two additions, or after the load of one,
whose register then holds the entry if it is `p`. -/
def ThreadAt (p : Nat × Nat) (t : Nat) (s : AState R) (ops : List (AMicro R)) (left : R) : Prop :=
  (∃ adds, ops = prog adds ∧ left = addedAt adds p) ∨
    ∃ q v adds, ops = .store q v :: prog adds ∧ left = (if q = p then v else 0) + addedAt adds p ∧
      (q = p → s.reg t = s.r.e p.1 p.2)

theorem runAdds_place (p : Nat × Nat) (t0 : Nat) : ∀ (M : List (Nat × AMicro R)) (s : AState R) (left : R),
    (∀ x ∈ M, x.2.place.1 < s.r.d0 ∧ x.2.place.2 < s.r.d1) →
    (∀ x ∈ M, x.1 ≠ t0 → x.2.place ≠ p) → ThreadAt p t0 s (threadOps t0 M) left →
    (runAdds M s).Sat fun s' => s'.r.d0 = s.r.d0 ∧ s'.r.d1 = s.r.d1 ∧
      s'.r.e p.1 p.2 = s.r.e p.1 p.2 + left := by
  intro M
  induction M with
  | nil =>
    intro s left _ _ h
    refine Res.Sat.ok ⟨rfl, rfl, ?_⟩
    rcases h with ⟨adds, h1, h2⟩ | ⟨q, v, adds, h1, -⟩
    · cases adds with
      | nil => rw [h2]; simp
      | cons a adds => simp [threadOps, prog] at h1
    · simp [threadOps] at h1
  | cons x M ih =>
    intro s left hb ho h
    obtain ⟨t, op⟩ := x
    have hb' : ∀ x ∈ M, x.2.place.1 < s.r.d0 ∧ x.2.place.2 < s.r.d1 := fun y hy => hb y (by simp [hy])
    have ho' : ∀ x ∈ M, x.1 ≠ t0 → x.2.place ≠ p := fun y hy => ho y (by simp [hy])
    obtain ⟨b0, b1⟩ := hb (t, op) (by simp)
    unfold runAdds
    by_cases ht : t = t0
    · subst ht
      rw [threadOps_self] at h
      cases op with
      | load q =>
        show ((vrd2 s.r q.1 q.2 >>= _) >>= _).Sat _
        rw [vrd2_ok (show q.1 < _ from b0) (show q.2 < _ from b1)]
        show (runAdds M _).Sat _
        refine ih _ left hb' ho' ?_
        rcases h with ⟨adds, h1, h2⟩ | ⟨q', v, adds, h1, -⟩
        · cases adds with
          | nil => simp [prog] at h1
          | cons a adds =>
            rw [prog, List.flatMap_cons, List.cons_append, List.cons_append, List.nil_append] at h1
            simp only [List.cons.injEq, AMicro.load.injEq] at h1
            obtain ⟨h1, h3⟩ := h1
            refine Or.inr ⟨a.1, a.2, adds, h3, by rw [h2, addedAt_cons], fun hq => ?_⟩
            show Function.update s.reg t _ t = s.r.e p.1 p.2
            rw [Function.update_self, h1, hq]
        · simp at h1
      | store q v =>
        rcases h with ⟨adds, h1, h2⟩ | ⟨q', v', adds, h1, h2, h3⟩
        · cases adds with
          | nil => simp [prog] at h1
          | cons a adds => simp [prog] at h1
        · simp only [List.cons.injEq, AMicro.store.injEq] at h1
          obtain ⟨⟨rfl, rfl⟩, h1⟩ := h1
          show ((vwr2 s.r q.1 q.2 (s.reg t + v) >>= _) >>= _).Sat _
          unfold vwr2
          rw [if_pos (show q.1 < _ ∧ q.2 < _ from ⟨b0, b1⟩)]
          show (runAdds M _).Sat _
          refine (ih ⟨⟨s.r.d0, s.r.d1, fun r c => if r = q.1 ∧ c = q.2 then s.reg t + v else s.r.e r c⟩, s.reg⟩ (addedAt adds p) hb' ho' (Or.inl ⟨adds, h1, rfl⟩)).mono ?_
          rintro s' ⟨e0, e1, e2⟩
          refine ⟨e0, e1, ?_⟩
          rw [e2, h2]
          show (if p.1 = q.1 ∧ p.2 = q.2 then s.reg t + v else s.r.e p.1 p.2) + _ = _
          by_cases hq : q = p
          · rw [if_pos ⟨by rw [hq], by rw [hq]⟩, if_pos hq, h3 hq, add_assoc]
          · rw [if_neg fun hh => hq (Prod.ext hh.1.symm hh.2.symm), if_neg hq, zero_add]
    · rw [threadOps_ne ht] at h
      have hp := ho (t, op) (by simp) ht
      cases op with
      | load q =>
        show ((vrd2 s.r q.1 q.2 >>= _) >>= _).Sat _
        rw [vrd2_ok (show q.1 < _ from b0) (show q.2 < _ from b1)]
        show (runAdds M _).Sat _
        refine ih _ left hb' ho' ?_
        rcases h with h | ⟨q', v, adds, h1, h2, h3⟩
        · exact Or.inl h
        · refine Or.inr ⟨q', v, adds, h1, h2, fun hq => ?_⟩
          show Function.update s.reg t _ t0 = _
          rw [Function.update_of_ne (Ne.symm ht)]
          exact h3 hq
      | store q v =>
        have hne : ¬ (p.1 = q.1 ∧ p.2 = q.2) := fun hh => hp (Prod.ext hh.1.symm hh.2.symm)
        show ((vwr2 s.r q.1 q.2 (s.reg t + v) >>= _) >>= _).Sat _
        unfold vwr2
        rw [if_pos (show q.1 < _ ∧ q.2 < _ from ⟨b0, b1⟩)]
        show (runAdds M _).Sat _
        refine (ih ⟨⟨s.r.d0, s.r.d1, fun r c => if r = q.1 ∧ c = q.2 then s.reg t + v else s.r.e r c⟩, s.reg⟩ left hb' ho' ?_).mono ?_
        · rcases h with h | ⟨q', v', adds, h1, h2, h3⟩
          · exact Or.inl h
          · refine Or.inr ⟨q', v', adds, h1, h2, fun hq => ?_⟩
            show s.reg t0 = if p.1 = q.1 ∧ p.2 = q.2 then _ else _
            rw [if_neg hne]
            exact h3 hq
        · rintro s' ⟨e0, e1, e2⟩
          refine ⟨e0, e1, ?_⟩
          rw [e2]
          show (if p.1 = q.1 ∧ p.2 = q.2 then _ else _) + _ = _
          rw [if_neg hne]

/-- Every interleaving returns, and a place that at most one face adds to ends with what that face adds. -/
theorem runAdds_ok {adds : List (List (Add R))} {M : List (Nat × AMicro R)} (hM : Interleaves adds M) {r : V2 R}
    (hw : ∀ l ∈ adds, Within l r.d0 r.d1) (reg : Nat → R) :
    ∃ s, runAdds M ⟨r, reg⟩ = .ok s ∧ s.r.d0 = r.d0 ∧ s.r.d1 = r.d1 ∧
      ∀ p t0, (∀ t, t ≠ t0 → ∀ a ∈ adds.getD t [], a.1 ≠ p) →
        s.r.e p.1 p.2 = r.e p.1 p.2 + addedAt (adds.getD t0 []) p := by
  have hop : ∀ x ∈ M, ∃ a ∈ adds.getD x.1 [], x.2.place = a.1 := by
    rintro ⟨t, op⟩ hx
    have hop := mem_threadOps.2 hx
    rw [hM.2 t (hM.1 _ hx)] at hop
    obtain ⟨a, ha, h⟩ := List.mem_flatMap.1 hop
    refine ⟨a, ha, ?_⟩
    simp only [List.mem_cons, List.not_mem_nil, or_false] at h
    rcases h with rfl | rfl <;> rfl
  have hb : ∀ x ∈ M, x.2.place.1 < r.d0 ∧ x.2.place.2 < r.d1 := by
    intro x hx
    obtain ⟨a, ha, e⟩ := hop x hx
    rw [e]
    refine hw (adds.getD x.1 []) ?_ a ha
    rw [List.getD_eq_getElem?_getD, List.getElem?_eq_getElem (hM.1 x hx)]
    exact List.getElem_mem _
  have hat : ∀ p t0, ThreadAt p t0 ⟨r, reg⟩ (threadOps t0 M) (addedAt (adds.getD t0 []) p) := by
    intro p t0
    by_cases ht : t0 < adds.length
    · exact Or.inl ⟨_, hM.2 t0 ht, rfl⟩
    · refine Or.inl ⟨[], ?_, ?_⟩
      · show threadOps t0 M = []
        rw [List.eq_nil_iff_forall_not_mem]
        · intro op h
          exact ht (hM.1 _ (mem_threadOps.1 h))
      · rw [List.getD_eq_getElem?_getD, List.getElem?_eq_none (by omega)]
        rfl
  have hown : ∀ p t0, (∀ t, t ≠ t0 → ∀ a ∈ adds.getD t [], a.1 ≠ p) → ∀ x ∈ M, x.1 ≠ t0 → x.2.place ≠ p := by
    intro p t0 h x hx hne
    obtain ⟨a, ha, e⟩ := hop x hx
    rw [e]
    exact h x.1 hne a ha
  -- a place outside of the workset shows that the run returns
  obtain ⟨s, hs, e0, e1, -⟩ := runAdds_place (r.d0, 0) 0 M ⟨r, reg⟩ _ hb
    (fun x hx _ h => by have := (hb x hx).1; rw [h] at this; exact absurd this (lt_irrefl _)) (hat _ 0)
  refine ⟨s, hs, e0, e1, fun p t0 h => ?_⟩
  obtain ⟨s', hs', -, -, e2⟩ := runAdds_place p t0 M ⟨r, reg⟩ _ hb (hown p t0 h) (hat p t0)
  rw [hs] at hs'
  cases hs'
  exact e2

/-- No two entries of the side set share a cell. -/
def Separate (F : Faces) (set : List Nat) : Prop :=
  ∀ f f', f < set.length → f' < set.length → f ≠ f' → ∀ c, c ∈ F.cellsOf (set.getD f 0) → c ∉ F.cellsOf (set.getD f' 0)

/-- **C48**: if no two faces of the side set share a cell, then every interleaving of the kernel ends with
what the faces add, as the kernel run face by face (`surfaceIntegral_ok`). -/
theorem C48_interleaving (sqrt : R → R) {d : Nat} {Y : Layout}
    (hY : Y.numDofs + Y.offset ≤ Y.dofsPerNode) {nc : Nat} {c2n : List Nat}
    {F : Faces} {set : List Nat} (hF : FacesOk d nc c2n F set) (hsep : Separate F set) (m : R)
    (val' : Nat → Nat → R → Nat → R) (x : Nat → Nat → Nat → R) {r : V2 R}
    (hr0 : nc ≤ r.d0) (hr1 : (d + 1) * Y.dofsPerNode ≤ r.d1) (reg : Nat → R) {M : List (Nat × AMicro R)}
    (hM : Interleaves (set.map (faceAddsOf sqrt d Y c2n F m val' x)) M) :
    ∃ s, runAdds M ⟨r, reg⟩ = .ok s ∧ s.r.d0 = r.d0 ∧ s.r.d1 = r.d1 ∧ ∀ c i, s.r.e c i = r.e c i +
      (set.map fun face => addedAt (faceAddsOf sqrt d Y c2n F m val' x face) (c, i)).sum := by
  obtain ⟨s, h1, h2, h3, h4⟩ := runAdds_ok hM (r := r) (by
    intro l hl
    obtain ⟨face, hface, rfl⟩ := List.mem_map.1 hl
    exact faceAddsOf_within sqrt Y hF m val' x hface hY hr0 hr1) reg
  refine ⟨s, h1, h2, h3, fun c i => ?_⟩
  have hget : ∀ t, t < set.length → (set.map (faceAddsOf sqrt d Y c2n F m val' x)).getD t [] =
      faceAddsOf sqrt d Y c2n F m val' x (set.getD t 0) := by
    intro t ht
    simp [List.getD_eq_getElem?_getD, ht]
  have hout : ∀ t, set.length ≤ t → (set.map (faceAddsOf sqrt d Y c2n F m val' x)).getD t [] = [] := by
    intro t ht
    simp [List.getD_eq_getElem?_getD, ht]
  have hcell : ∀ face a, a ∈ faceAddsOf sqrt d Y c2n F m val' x face → a.1.1 ∈ F.cellsOf face := by
    intro face a ha
    obtain ⟨cell, hcell, ha⟩ := List.mem_flatMap.1 ha
    obtain ⟨n, _, ha⟩ := List.mem_flatMap.1 ha
    obtain ⟨k, _, rfl⟩ := List.mem_map.1 ha
    exact hcell
  have hz : ∀ t, c ∉ F.cellsOf (set.getD t 0) →
      addedAt (faceAddsOf sqrt d Y c2n F m val' x (set.getD t 0)) (c, i) = 0 := by
    intro t ht
    refine List.sum_eq_zero fun y hy => ?_
    obtain ⟨a, ha, rfl⟩ := List.mem_map.1 hy
    rw [if_neg]
    intro h
    exact ht (by rw [← show a.1.1 = c by rw [h]]; exact hcell _ a ha)
  rw [sum_getD set fun face => addedAt (faceAddsOf sqrt d Y c2n F m val' x face) (c, i)]
  by_cases hex : ∃ t0, t0 < set.length ∧ c ∈ F.cellsOf (set.getD t0 0)
  · obtain ⟨t0, ht0, hc⟩ := hex
    rw [h4 (c, i) t0, hget t0 ht0, sum_eq_single_of_mem t0 (mem_range.2 ht0)]
    · intro t ht hne
      exact hz t fun h => hsep t t0 (mem_range.1 ht) ht0 hne c h hc
    · intro t hne a ha hap
      by_cases ht : t < set.length
      · rw [hget t ht] at ha
        have := hcell _ a ha
        rw [show a.1.1 = c by rw [hap]] at this
        exact hsep t t0 ht ht0 hne c this hc
      · rw [hout t (by omega)] at ha
        simp at ha
  · rw [h4 (c, i) set.length, hout _ le_rfl, addedAt_nil, sum_eq_zero]
    · intro t ht
      exact hz t fun h => hex ⟨t, mem_range.1 ht, h⟩
    · intro t hne a ha hap
      by_cases ht : t < set.length
      · rw [hget t ht] at ha
        have := hcell _ a ha
        rw [show a.1.1 = c by rw [hap]] at this
        exact hex ⟨t, ht, this⟩
      · rw [hout t (by omega)] at ha
        simp at ha

end Plato.Bnd
