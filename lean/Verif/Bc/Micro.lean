import Verif.Bc.ConstraintsModel
import Verif.Fem.Scatter

/-!
# Interleaved execution of memory operations
-/

namespace Plato
open Finset
variable {K : Type}

/-- Operations of thread `t` in a merged list, in order. -/
def proj (t : Nat) (M : List (Nat × CMicro K)) : List (CMicro K) :=
  (M.filter fun x => decide (x.1 = t)).map Prod.snd

/-- `M` is an interleaving of the thread programs `progs`: it holds exactly the operations of the
threads, those of one thread in program order. -/
def IsMerge (progs : List (List (CMicro K))) (M : List (Nat × CMicro K)) : Prop :=
  (∀ x ∈ M, x.1 < progs.length) ∧ ∀ t, t < progs.length → progs[t]? = some (proj t M)

/-- A thread that has executed `seen` may execute `op`: a temporary is loaded before use, and a
matrix entry is not loaded after the same thread has cleared it. -/
def MicroOk (seen : List (CMicro K)) : CMicro K → Prop
  | .load p => CMicro.zero p ∉ seen
  | .add p _ _ => CMicro.load p ∈ seen
  | _ => True

/-- Every operation of the list is allowed at its place. -/
def Ordered : List (CMicro K) → List (CMicro K) → Prop
  | _, [] => True
  | seen, op :: rest => MicroOk seen op ∧ Ordered (seen ++ [op]) rest

theorem ordered_append (seen l1 l2 : List (CMicro K)) :
    Ordered seen (l1 ++ l2) ↔ Ordered seen l1 ∧ Ordered (seen ++ l1) l2 := by
  induction l1 generalizing seen with
  | nil => simp [Ordered]
  | cons op l1 ih =>
    simp only [List.cons_append, Ordered, ih, and_assoc, List.append_assoc, List.nil_append]

theorem proj_cons_self (t : Nat) (op : CMicro K) (M : List (Nat × CMicro K)) :
    proj t ((t, op) :: M) = op :: proj t M := by simp [proj]

theorem proj_cons_ne {t t' : Nat} (h : t' ≠ t) (op : CMicro K) (M : List (Nat × CMicro K)) :
    proj t ((t', op) :: M) = proj t M := by simp [proj, h]

theorem proj_append (t : Nat) (M N : List (Nat × CMicro K)) :
    proj t (M ++ N) = proj t M ++ proj t N := by simp [proj]

theorem mem_proj {t : Nat} {op : CMicro K} {M : List (Nat × CMicro K)} :
    op ∈ proj t M ↔ (t, op) ∈ M := by
  unfold proj
  rw [List.mem_map]
  constructor
  · rintro ⟨⟨t', op'⟩, h, rfl⟩
    simp at h
    obtain ⟨h1, rfl⟩ := h
    exact h1
  · intro h
    exact ⟨(t, op), by simpa using h, rfl⟩

/-- Contribution of one operation to entry `c` of the right hand side when every load returns the
initial matrix value. -/
def addTerm [CommRing K] (v0 : List K) (c : Nat) : CMicro K → K
  | .add p c' v => if c' = c then -at0 v0 p * v else 0
  | _ => 0

/-- Sum over a merged list is the sum over the threads. -/
theorem merge_sum [AddCommMonoid K] {K' : Type} {progs : List (List (CMicro K'))}
    {M : List (Nat × CMicro K')} (h : IsMerge progs M) (f : CMicro K' → K) :
    (M.map fun x => f x.2).sum = ∑ t ∈ range progs.length, ((progs.getD t []).map f).sum := by
  have key : ∀ (n : Nat) (M : List (Nat × CMicro K')), (∀ x ∈ M, x.1 < n) →
      (M.map fun x => f x.2).sum = ∑ t ∈ range n, ((proj t M).map f).sum := by
    intro n M
    induction M with
    | nil => intro _; simp [proj]
    | cons x M ih =>
      intro hx
      have e : ∀ t ∈ range n, ((proj t (x :: M)).map f).sum =
          (if t = x.1 then f x.2 else 0) + ((proj t M).map f).sum := by
        intro t _
        by_cases ht : t = x.1
        · subst ht
          rw [if_pos rfl, show x = (x.1, x.2) from rfl, proj_cons_self]
          simp
        · rw [if_neg ht, show x = (x.1, x.2) from rfl, proj_cons_ne (Ne.symm ht), zero_add]
      rw [sum_congr rfl e, sum_add_distrib, ← ih (fun y hy => hx y (by simp [hy])), List.map_cons,
        List.sum_cons, sum_ite_eq' (range n) x.1 (fun _ => f x.2),
        if_pos (mem_range.2 (hx x (by simp)))]
  rw [key progs.length M h.1]
  refine sum_congr rfl fun t ht => ?_
  rw [List.getD_eq_getElem?_getD, h.2 t (mem_range.1 ht)]
  rfl

/-- Every interleaving: entries set to one and never cleared end as one, entries cleared end as
zero, the others are kept; a right hand side entry whose contributions are all loaded from entries
no other thread writes receives the sum of the contributions computed from the initial matrix. -/
theorem runMicro_sat [CommRing K] (v0 r0 : List K) (M : List (Nat × CMicro K))
    (hord : ∀ t, Ordered [] (proj t M))
    (hb1 : ∀ t p, (t, CMicro.one p) ∈ M → p < v0.length)
    (hb0 : ∀ t p, (t, CMicro.zero p) ∈ M → p < v0.length)
    (hbl : ∀ t p, (t, CMicro.load p) ∈ M → p < v0.length)
    (hba : ∀ t p c v, (t, CMicro.add p c v) ∈ M → c < r0.length)
    (hdisj : ∀ t t' p, (t, CMicro.one p) ∈ M → (t', CMicro.zero p) ∈ M → False)
    (safe : Nat → Prop)
    (hsafe : ∀ t p c v, (t, CMicro.add p c v) ∈ M → safe c →
      (∀ t', (t', CMicro.one p) ∉ M) ∧ ∀ t', (t', CMicro.zero p) ∈ M → t' = t) :
    (runMicro M { vals := v0, rhs := r0, tmp := fun _ _ => 0 }).Sat fun s =>
      s.vals.length = v0.length ∧ s.rhs.length = r0.length ∧
      (∀ p, (∃ t, (t, CMicro.one p) ∈ M) → at0 s.vals p = 1) ∧
      (∀ p, (∃ t, (t, CMicro.zero p) ∈ M) → at0 s.vals p = 0) ∧
      (∀ p, (∀ t, (t, CMicro.one p) ∉ M) → (∀ t, (t, CMicro.zero p) ∉ M) →
        at0 s.vals p = at0 v0 p) ∧
      ∀ c, safe c → at0 s.rhs c = at0 r0 c + (M.map fun x => addTerm v0 c x.2).sum := by
  -- state after the prefix `pre` of `M`
  let Inv : List (Nat × CMicro K) → CState K → Prop := fun pre s =>
    s.vals.length = v0.length ∧ s.rhs.length = r0.length ∧
    (∀ p, (∃ t, (t, CMicro.one p) ∈ pre) → at0 s.vals p = 1) ∧
    (∀ p, (∃ t, (t, CMicro.zero p) ∈ pre) → at0 s.vals p = 0) ∧
    (∀ p, (∀ t, (t, CMicro.one p) ∉ pre) → (∀ t, (t, CMicro.zero p) ∉ pre) →
      at0 s.vals p = at0 v0 p) ∧
    (∀ t p, (t, CMicro.load p) ∈ pre → (∀ t', (t', CMicro.one p) ∉ M) →
      (∀ t', (t', CMicro.zero p) ∈ M → t' = t) → s.tmp t p = at0 v0 p) ∧
    ∀ c, safe c → at0 s.rhs c = at0 r0 c + (pre.map fun x => addTerm v0 c x.2).sum
  have key : ∀ (post pre : List (Nat × CMicro K)) (s : CState K), M = pre ++ post → Inv pre s →
      (runMicro post s).Sat (Inv M) := by
    intro post
    induction post with
    | nil =>
      intro pre s hM hinv
      rw [List.append_nil] at hM
      subst hM
      exact Res.Sat.ok hinv
    | cons x post ih =>
      rintro pre s hM ⟨i1, i2, i3, i4, i5, i6, i7⟩
      obtain ⟨t, op⟩ := x
      have hmem : (t, op) ∈ M := by rw [hM]; simp
      have hpre : ∀ y ∈ pre, y ∈ M := fun y hy => by rw [hM]; simp [hy]
      have hok : MicroOk (proj t pre) op := by
        have := hord t
        rw [hM, proj_append, proj_cons_self, ordered_append, List.nil_append] at this
        exact this.2.1
      have hM' : M = (pre ++ [(t, op)]) ++ post := by simp [hM]
      unfold runMicro
      have step : (CMicro.exec t op s).Sat (Inv (pre ++ [(t, op)])) := by
        cases op with
        | one p =>
          have hp := hb1 t p hmem
          show ((wr s.vals p 1) >>= _).Sat _
          rw [wr_eq (by omega)]
          refine Res.Sat.ok ⟨by simpa using i1, i2, ?_, ?_, ?_, ?_, ?_⟩
          · rintro q ⟨t', hq⟩
            show at0 (s.vals.set p 1) q = 1
            rw [at0_set (by omega)]
            by_cases hqp : q = p
            · rw [if_pos hqp]
            · rw [if_neg hqp]
              refine i3 q ⟨t', ?_⟩
              rcases List.mem_append.1 hq with h | h
              · exact h
              · simp at h; exact absurd h.2 hqp
          · rintro q ⟨t', hq⟩
            have hq' : (t', CMicro.zero q) ∈ pre := by
              rcases List.mem_append.1 hq with h | h
              · exact h
              · simp at h
            show at0 (s.vals.set p 1) q = 0
            rw [at0_set (by omega), if_neg, i4 q ⟨t', hq'⟩]
            rintro rfl
            exact hdisj t t' q hmem (hpre _ hq')
          · intro q h1 h0
            show at0 (s.vals.set p 1) q = _
            rw [at0_set (by omega), if_neg]
            · exact i5 q (fun t' h => h1 t' (by simp [h])) (fun t' h => h0 t' (by simp [h]))
            · rintro rfl; exact h1 t (by simp)
          · intro t' q hq h1 h0
            refine i6 t' q ?_ h1 h0
            rcases List.mem_append.1 hq with h | h
            · exact h
            · simp at h
          · intro c hc
            rw [List.map_append, List.sum_append]
            show at0 s.rhs c = _ + (_ + ([0] : List K).sum)
            rw [i7 c hc]; simp
        | zero p =>
          have hp := hb0 t p hmem
          show ((wr s.vals p 0) >>= _).Sat _
          rw [wr_eq (by omega)]
          refine Res.Sat.ok ⟨by simpa using i1, i2, ?_, ?_, ?_, ?_, ?_⟩
          · rintro q ⟨t', hq⟩
            have hq' : (t', CMicro.one q) ∈ pre := by
              rcases List.mem_append.1 hq with h | h
              · exact h
              · simp at h
            show at0 (s.vals.set p 0) q = 1
            rw [at0_set (by omega), if_neg, i3 q ⟨t', hq'⟩]
            rintro rfl
            exact hdisj t' t q (hpre _ hq') hmem
          · rintro q ⟨t', hq⟩
            show at0 (s.vals.set p 0) q = 0
            rw [at0_set (by omega)]
            by_cases hqp : q = p
            · rw [if_pos hqp]
            · rw [if_neg hqp]
              refine i4 q ⟨t', ?_⟩
              rcases List.mem_append.1 hq with h | h
              · exact h
              · simp at h; exact absurd h.2 hqp
          · intro q h1 h0
            show at0 (s.vals.set p 0) q = _
            rw [at0_set (by omega), if_neg]
            · exact i5 q (fun t' h => h1 t' (by simp [h])) (fun t' h => h0 t' (by simp [h]))
            · rintro rfl; exact h0 t (by simp)
          · intro t' q hq h1 h0
            refine i6 t' q ?_ h1 h0
            rcases List.mem_append.1 hq with h | h
            · exact h
            · simp at h
          · intro c hc
            rw [List.map_append, List.sum_append]
            show at0 s.rhs c = _ + (_ + ([0] : List K).sum)
            rw [i7 c hc]; simp
        | load p =>
          have hp := hbl t p hmem
          show ((rd s.vals p) >>= _).Sat _
          rw [rd_at0 (by omega)]
          refine Res.Sat.ok ⟨i1, i2, ?_, ?_, ?_, ?_, ?_⟩
          · rintro q ⟨t', hq⟩
            refine i3 q ⟨t', ?_⟩
            rcases List.mem_append.1 hq with h | h
            · exact h
            · simp at h
          · rintro q ⟨t', hq⟩
            refine i4 q ⟨t', ?_⟩
            rcases List.mem_append.1 hq with h | h
            · exact h
            · simp at h
          · intro q h1 h0
            exact i5 q (fun t' h => h1 t' (by simp [h])) (fun t' h => h0 t' (by simp [h]))
          · intro t' q hq h1 h0
            show (if t' = t ∧ q = p then at0 s.vals p else s.tmp t' q) = _
            by_cases hh : t' = t ∧ q = p
            · rw [if_pos hh]
              obtain ⟨rfl, rfl⟩ := hh
              refine i5 q (fun t'' h => h1 t'' (hpre _ h)) ?_
              intro t'' h
              have := h0 t'' (hpre _ h)
              subst this
              exact hok (mem_proj.2 h)
            · rw [if_neg hh]
              refine i6 t' q ?_ h1 h0
              rcases List.mem_append.1 hq with h | h
              · exact h
              · simp at h; exact absurd h hh
          · intro c hc
            rw [List.map_append, List.sum_append]
            show at0 s.rhs c = _ + (_ + ([0] : List K).sum)
            rw [i7 c hc]; simp
        | add p c v =>
          have hp := hba t p c v hmem
          show ((rd s.rhs c) >>= _).Sat _
          rw [rd_at0 (by omega)]
          simp only [Res.ok_bind]
          rw [wr_eq (by omega)]
          refine Res.Sat.ok ⟨i1, by simpa using i2, ?_, ?_, ?_, ?_, ?_⟩
          · rintro q ⟨t', hq⟩
            refine i3 q ⟨t', ?_⟩
            rcases List.mem_append.1 hq with h | h
            · exact h
            · simp at h
          · rintro q ⟨t', hq⟩
            refine i4 q ⟨t', ?_⟩
            rcases List.mem_append.1 hq with h | h
            · exact h
            · simp at h
          · intro q h1 h0
            exact i5 q (fun t' h => h1 t' (by simp [h])) (fun t' h => h0 t' (by simp [h]))
          · intro t' q hq h1 h0
            refine i6 t' q ?_ h1 h0
            rcases List.mem_append.1 hq with h | h
            · exact h
            · simp at h
          · intro c' hc'
            show at0 (s.rhs.set c (at0 s.rhs c + -s.tmp t p * v)) c' = _
            rw [at0_set (by omega), List.map_append, List.sum_append]
            show _ = _ + (_ + ([if c = c' then -at0 v0 p * v else 0] : List K).sum)
            by_cases hcc : c' = c
            · subst hcc
              obtain ⟨h1, h0⟩ := hsafe t p c' v hmem hc'
              rw [if_pos rfl, if_pos rfl, i6 t p (mem_proj.1 hok) h1 h0, i7 c' hc']
              simp [add_assoc]
            · rw [if_neg hcc, if_neg (Ne.symm hcc), i7 c' hc']
              simp
      refine Res.Sat.bind step ?_
      intro s' hs'
      exact ih (pre ++ [(t, op)]) s' hM' hs'
  refine (key M [] _ rfl ⟨rfl, rfl, by simp, by simp, by simp, by simp, by simp⟩).mono ?_
  rintro s ⟨i1, i2, i3, i4, i5, -, i7⟩
  exact ⟨i1, i2, i3, i4, i5, i7⟩

end Plato
