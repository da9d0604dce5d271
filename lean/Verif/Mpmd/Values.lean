import Verif.Mpmd.Frame

/-!
# Exported values of criteria (C92)
-/

namespace Plato.Mpmd
open Plato

variable {S : Sim}

/-! ## Names -/

theorem splitGo_plain {d : Char} {s : Str} (h : d ∉ s) : ∀ cur : Str, cur ++ s ≠ [] → splitGo d cur s = [cur ++ s] := by
  induction s with
  | nil => intro cur hc; simpa [splitGo] using hc
  | cons c s ih =>
    intro cur _
    have hc : c ≠ d := fun e => h (by simp [e])
    unfold splitGo
    rw [if_neg hc, ih (fun m => h (by simp [m])) _ (by simp)]
    simp

/-- A name without `@` is the name of a field with index 0. -/
theorem fieldName_plain {n : Str} (h : '@' ∉ n) (h0 : n ≠ []) : fieldName n = .ok (n, 0) := by
  unfold fieldName split
  rw [splitGo_plain h [] (by simpa using h0)]
  simp [rd]

theorem exportValue_criterion {n c : Str} (k : Nat) {a : App S} (hn : a.valueName n = some c) :
    exportValue n k a = .ok [(a.values c).getD 0] a := by
  unfold exportValue
  rw [bind_run (get_run a), hn]
  rfl

theorem exportData_scalar {n c : Str} (k : Nat) {a : App S} (h : '@' ∉ n) (h0 : n ≠ []) (hn : a.valueName n = some c) :
    exportData n .scalar k a = .ok (some [(a.values c).getD 0]) a := by
  unfold exportData
  rw [bind_run (lift_run_ok (fieldName_plain h h0) a)]
  dsimp only
  rw [bind_run (exportValue_criterion k hn)]
  rfl

/-- **C92.**  After a call of an operation that computes a value of a criterion, and any further history (also with
exceptions) without a call of an operation that computes a value of the same criterion, the value exported under a name
registered for the criterion is what the problem returned for the topology and the solution at the time of the call,
less the target of the operation.

Partial: an operation for the same criterion overwrites the value (`C92_target_false`, `C92_definition_false`), and a
name with `@` is cut (`C92_name_false`). -/
theorem C92_value_partial {a b d : App S} {o n c : Str} {op : Op} {t : ℝ} {hist : List (Cmd S)} (k : Nat)
    (ho : a.ops o = some op) (hk : op.kind.valueOf = some (c, t)) (hn : a.valueName n = some c) (hat : '@' ∉ n)
    (h0 : n ≠ []) (hrun : compute o a = .ok () b) (hist_ok : execAll hist b = some d)
    (hother : ∀ cmd ∈ hist, Other (· = c) a cmd) :
    ∃ p v p', S.value p b.control b.sol c = .ok (v, p') ∧ Behind b c p' ∧
      exportData n .scalar k d = .ok (some [v - t]) d := by
  obtain ⟨p, v, p', hv, hb, hp⟩ := value_of_compute ho hk hrun
  have hab : Same (fun _ => False) a b := by
    have := keeps_compute (fun _ => False) o a (fun _ _ _ _ _ => id)
    rw [hrun] at this
    exact this
  have hbd : Same (· = c) b d := by
    refine same_execAll _ (fun cmd hc o' op' he ho' x t' e => ?_) hist_ok
    have hk' := hab.kind o'
    rw [ho'] at hk'
    cases hao : a.ops o' with
    | none => rw [hao] at hk'; simp at hk'
    | some q =>
      rw [hao] at hk'
      simp only [Option.map_some, Option.some.injEq, Op.fixed, Prod.mk.injEq] at hk'
      exact hother cmd hc o' q he hao x t' (by rw [← hk'.1]; exact e)
  refine ⟨p, v, p', hv, hp, ?_⟩
  rw [exportData_scalar k hat h0 (by rw [hbd.name, hab.name]; exact hn), hbd.value _ rfl, hb]
  rfl

/-! ## Registration -/

/-- Names are registered for one criterion: `initialize` returns only if no name is given to two criteria. -/
theorem addUnique_ok {m m' : Str → Option Str} {key v : Str} (h0 : key ≠ []) (h : addUnique m key v = .ok m') :
    m' key = some v ∧ ∀ k w, m k = some w → m' k = some w := by
  unfold addUnique at h
  rw [if_neg h0] at h
  cases hm : m key with
  | none =>
    rw [hm] at h
    simp only [Res.ok.injEq] at h
    subst h
    refine ⟨by simp [upd], fun k w hk => ?_⟩
    unfold upd
    split_ifs with e
    · subst e; rw [hm] at hk; cases hk
    · exact hk
  | some w =>
    rw [hm] at h
    dsimp only at h
    split_ifs at h with e
    · cases h
    · simp only [ne_eq, not_not] at e
      cases h
      exact ⟨by rw [hm, e], fun k w hk => hk⟩

/-- Names that are registered stay, and the operations do not change. -/
structure Grows (a b : App S) : Prop where
  name : ∀ n c, a.valueName n = some c → b.valueName n = some c
  ops : b.ops = a.ops

theorem Grows.refl (a : App S) : Grows a a := ⟨fun _ _ => id, rfl⟩

theorem Grows.trans (a b d : App S) (h : Grows a b) (k : Grows b d) : Grows a d :=
  ⟨fun n c x => k.name n c (h.name n c x), k.ops.trans h.ops⟩

theorem registerValue_ok {c n : Str} {a b : App S} (h : registerValue c n a = .ok () b) :
    Grows a b ∧ (n ≠ [] → b.valueName n = some c) := by
  unfold registerValue at h
  simp only [bind_ok, get_ok, lift_ok, modify_ok] at h
  obtain ⟨_, s1, rfl, _, s2, ⟨rfl, rfl⟩, m, s3, ⟨hm, rfl⟩, rfl⟩ := h
  dsimp only at hm ⊢
  by_cases h0 : n = []
  · subst h0
    simp only [addUnique, if_true, Res.ok.injEq] at hm
    subst hm
    exact ⟨⟨fun _ _ => id, rfl⟩, fun h => absurd rfl h⟩
  · obtain ⟨h1, h2⟩ := addUnique_ok h0 hm
    exact ⟨⟨h2, rfl⟩, fun _ => h1⟩

theorem registerGradZ_ok {c n : Str} {a b : App S} (h : registerGradZ c n a = .ok () b) : Grows a b := by
  unfold registerGradZ at h
  simp only [bind_ok, get_ok, lift_ok, modify_ok] at h
  obtain ⟨_, s1, rfl, _, s2, ⟨rfl, rfl⟩, m, s3, ⟨hm, rfl⟩, rfl⟩ := h
  exact ⟨fun _ _ => id, rfl⟩

theorem registerGradX_ok {c n : Str} {a b : App S} (h : registerGradX c n a = .ok () b) : Grows a b := by
  unfold registerGradX at h
  simp only [bind_ok, get_ok, lift_ok, modify_ok] at h
  obtain ⟨_, s1, rfl, _, s2, ⟨rfl, rfl⟩, m, s3, ⟨hm, rfl⟩, rfl⟩ := h
  exact ⟨fun _ _ => id, rfl⟩

theorem checkCriterion_ok {c : Str} {a b : App S} (h : checkCriterion c a = .ok () b) : a = b := by
  unfold checkCriterion at h
  split_ifs at h <;> simp [throwErr] at h
  exact h

theorem register_ok {nd : Node} {q : Str → Option Parm} {k : Kind} {a b : App S} (h : register nd q k a = .ok () b) :
    Grows a b ∧ ∀ c t n, k.valueOf = some (c, t) → getArgumentName sValue nd.outputs = .ok n → n ≠ [] →
      b.valueName n = some c := by
  cases k with
  | criterion c t =>
    simp only [register, bind_ok, lift_ok] at h
    obtain ⟨_, s1, h1, v, s2, ⟨hv, rfl⟩, g, s3, ⟨hg, rfl⟩, _, s4, h4, h5⟩ := h
    obtain rfl := checkCriterion_ok h1
    obtain ⟨g1, g2⟩ := registerValue_ok h4
    have g3 := registerGradZ_ok h5
    refine ⟨g1.trans _ _ _ g3, fun c' t' n hk hn h0 => ?_⟩
    simp only [Kind.valueOf, Option.some.injEq, Prod.mk.injEq] at hk
    rw [hv] at hn
    cases hn
    exact g3.name _ _ (by rw [← hk.1]; exact g2 h0)
  | criterionX c t =>
    simp only [register, bind_ok, lift_ok] at h
    obtain ⟨_, s1, h1, v, s2, ⟨hv, rfl⟩, g, s3, ⟨hg, rfl⟩, _, s4, h4, h5⟩ := h
    obtain rfl := checkCriterion_ok h1
    obtain ⟨g1, g2⟩ := registerValue_ok h4
    have g3 := registerGradX_ok h5
    refine ⟨g1.trans _ _ _ g3, fun c' t' n hk hn h0 => ?_⟩
    simp only [Kind.valueOf, Option.some.injEq, Prod.mk.injEq] at hk
    rw [hv] at hn
    cases hn
    exact g3.name _ _ (by rw [← hk.1]; exact g2 h0)
  | value c t =>
    simp only [register, bind_ok, lift_ok] at h
    obtain ⟨_, s1, h1, v, s2, ⟨hv, rfl⟩, h4⟩ := h
    obtain rfl := checkCriterion_ok h1
    obtain ⟨g1, g2⟩ := registerValue_ok h4
    refine ⟨g1, fun c' t' n hk hn h0 => ?_⟩
    simp only [Kind.valueOf, Option.some.injEq, Prod.mk.injEq] at hk
    rw [hv] at hn
    cases hn
    rw [← hk.1]
    exact g2 h0
  | gradient c =>
    simp only [register, bind_ok, lift_ok] at h
    obtain ⟨_, s1, h1, v, s2, ⟨hv, rfl⟩, h4⟩ := h
    obtain rfl := checkCriterion_ok h1
    exact ⟨registerGradZ_ok h4, fun _ _ _ hk => by cases hk⟩
  | gradientX c =>
    simp only [register, bind_ok, lift_ok] at h
    obtain ⟨_, s1, h1, v, s2, ⟨hv, rfl⟩, h4⟩ := h
    obtain rfl := checkCriterion_ok h1
    exact ⟨registerGradX_ok h4, fun _ _ _ hk => by cases hk⟩
  | mapX c ins =>
    simp only [register, bind_ok, modify_ok] at h
    obtain ⟨_, s1, h1, _, s2, rfl, rfl⟩ := h
    obtain rfl := checkCriterion_ok h1
    exact ⟨⟨fun _ _ => id, rfl⟩, fun _ _ _ hk => by cases hk⟩
  | reinitialize o =>
    simp only [register, modify_ok] at h
    subst h
    exact ⟨⟨fun _ _ => id, rfl⟩, fun _ _ _ hk => by cases hk⟩
  | difference d =>
    simp only [register, bind_ok, modify_ok] at h
    obtain ⟨_, s1, rfl, h2⟩ := h
    cases hq : q sLength with
    | none => simp [hq] at h2
    | some l =>
      rw [hq] at h2
      dsimp only at h2
      split_ifs at h2
      · simp [throwErr] at h2
      · simp only [modify_ok] at h2
        subst h2
        exact ⟨⟨fun _ _ => id, rfl⟩, fun _ _ _ hk => by cases hk⟩
  | solution => simp only [register, pure_ok] at h; obtain ⟨_, rfl⟩ := h; exact ⟨Grows.refl _, fun _ _ _ hk => by cases hk⟩
  | update => simp only [register, pure_ok] at h; obtain ⟨_, rfl⟩ := h; exact ⟨Grows.refl _, fun _ _ _ hk => by cases hk⟩
  | reloadMesh => simp only [register, pure_ok] at h; obtain ⟨_, rfl⟩ := h; exact ⟨Grows.refl _, fun _ _ _ hk => by cases hk⟩
  | hdf5 ns => simp only [register, pure_ok] at h; obtain ⟨_, rfl⟩ := h; exact ⟨Grows.refl _, fun _ _ _ hk => by cases hk⟩
  | output => simp only [register, pure_ok] at h; obtain ⟨_, rfl⟩ := h; exact ⟨Grows.refl _, fun _ _ _ hk => by cases hk⟩

theorem readOp_ok {nd : Node} {a b : App S} (h : readOp nd a = .ok () b) :
    (∀ n c, a.valueName n = some c → b.valueName n = some c) ∧
    (∀ k c t n, nd.kind = some k → k.valueOf = some (c, t) → getArgumentName sValue nd.outputs = .ok n → n ≠ [] →
      b.valueName n = some c) ∧
    (∀ k, nd.kind = some k → ∃ op, b.ops nd.name = some op ∧ op.kind = k ∧ op.defn = nd.defn) ∧
    (∀ o op, b.ops o = some op → a.ops o = some op ∨ nd.name = o ∧ nd.kind = some op.kind ∧ nd.defn = op.defn) ∧
    (∀ o, o ≠ nd.name → b.ops o = a.ops o) := by
  unfold readOp at h
  cases hk : nd.kind with
  | none =>
    rw [hk] at h
    simp only [pure_ok] at h
    obtain ⟨_, rfl⟩ := h
    refine ⟨fun _ _ => id, ?_, ?_, fun _ _ e => Or.inl e, fun _ _ => rfl⟩
    · intro _ _ _ _ e
      exact absurd e (by simp)
    · intro _ e
      exact absurd e (by simp)
  | some k =>
    rw [hk] at h
    simp only [construct, bind_ok, lift_ok, pure_ok, modify_ok] at h
    obtain ⟨op, s1, ⟨q, s2, ⟨hq, rfl⟩, _, s3, hr, rfl, rfl⟩, rfl⟩ := h
    obtain ⟨g1, g2⟩ := register_ok hr
    refine ⟨g1.name, fun k' c t n e => by cases e; exact g2 c t n, fun k' e => ?_, fun o op ho => ?_, fun o ho => ?_⟩
    · cases e
      exact ⟨_, by simp [upd]; rfl, rfl, rfl⟩
    · dsimp only [upd] at ho
      split_ifs at ho with e
      · cases ho
        exact Or.inr ⟨e.symm, rfl, rfl⟩
      · rw [g1.ops] at ho
        exact Or.inl ho
    · dsimp only [upd]
      rw [if_neg ho, g1.ops]

theorem readOps_ok {nodes : List Node} : ∀ {a b : App S}, readOps nodes a = .ok () b →
    (∀ n c, a.valueName n = some c → b.valueName n = some c) ∧
    (∀ nd ∈ nodes, ∀ k c t n, nd.kind = some k → k.valueOf = some (c, t) → getArgumentName sValue nd.outputs = .ok n →
      n ≠ [] → b.valueName n = some c) ∧
    (∀ o op, b.ops o = some op → a.ops o = some op ∨ ∃ nd ∈ nodes, nd.name = o ∧ nd.kind = some op.kind ∧
      nd.defn = op.defn) ∧
    (∀ o, (∀ nd ∈ nodes, nd.name ≠ o) → b.ops o = a.ops o) ∧
    (nodes.Pairwise (fun x y => x.name ≠ y.name) → ∀ nd ∈ nodes, ∀ k, nd.kind = some k →
      ∃ op, b.ops nd.name = some op ∧ op.kind = k ∧ op.defn = nd.defn) := by
  induction nodes with
  | nil =>
    intro a b h
    simp only [readOps, pure_ok] at h
    obtain ⟨_, rfl⟩ := h
    exact ⟨fun _ _ => id, by simp, fun _ _ => Or.inl, fun _ _ => rfl, by simp⟩
  | cons nd rest ih =>
    intro a b h
    simp only [readOps, bind_ok] at h
    obtain ⟨_, a1, h1, h2⟩ := h
    obtain ⟨p1, p2, p3, p4, p5⟩ := readOp_ok h1
    obtain ⟨q1, q2, q3, q4, q5⟩ := ih h2
    refine ⟨fun n c e => q1 n c (p1 n c e), ?_, ?_, ?_, ?_⟩
    · intro x hx k c t n e1 e2 e3 e4
      rcases List.mem_cons.1 hx with rfl | hx
      · exact q1 n c (p2 k c t n e1 e2 e3 e4)
      · exact q2 x hx k c t n e1 e2 e3 e4
    · intro o op e
      rcases q3 o op e with e | ⟨x, hx, e1⟩
      · rcases p4 o op e with e | e
        · exact Or.inl e
        · exact Or.inr ⟨nd, by simp, e⟩
      · exact Or.inr ⟨x, by simp [hx], e1⟩
    · intro o ho
      rw [q4 o fun x hx => ho x (by simp [hx]), p5 o fun e => ho nd (by simp) e.symm]
    · intro hp x hx k e
      rw [List.pairwise_cons] at hp
      rcases List.mem_cons.1 hx with rfl | hx
      · obtain ⟨op, o1, o2, o3⟩ := p3 k e
        exact ⟨op, by rw [q4 x.name fun y hy => (hp.1 y hy).symm]; exact o1, o2, o3⟩
      · exact q5 hp.2 x hx k e

theorem readDefs_ok {nodes : List Node} : ∀ {a b : App S}, readDefs nodes a = .ok () b →
    b.ops = a.ops ∧ b.valueName = a.valueName := by
  induction nodes with
  | nil => intro a b h; simp only [readDefs, pure_ok] at h; obtain ⟨_, rfl⟩ := h; exact ⟨rfl, rfl⟩
  | cons nd rest ih =>
    intro a b h
    unfold readDefs at h
    rw [bind_run (get_run a)] at h
    cases hd : a.defs nd.defn with
    | some d => rw [hd] at h; exact ih h
    | none =>
      rw [hd] at h
      simp only [bind_ok, lift_ok, modify_ok] at h
      obtain ⟨p, s1, ⟨_, rfl⟩, _, s2, rfl, h3⟩ := h
      obtain ⟨e1, e2⟩ := ih h3
      exact ⟨e1, e2⟩

theorem initApp_ok {nodes : List Node} {a b : App S} (h : initApp nodes a = .ok () b) :
    ∃ a1, a1.ops = a.ops ∧ a1.valueName = a.valueName ∧ readOps nodes a1 = .ok () b := by
  unfold initApp at h
  simp only [bind_ok, modify_ok] at h
  obtain ⟨_, s1, rfl, _, s2, h2, h3⟩ := h
  obtain ⟨e1, e2⟩ := readDefs_ok h2
  exact ⟨s2, e1, e2, h3⟩

/-- **C92.**  From the input to an exported value.  The operations are those of the input, with names of their own.  In
any history after `initialize`, also with exceptions, the value exported under the name that an operation gives to its
value is what the problem returned when the operation was called, less its target, as long as no operation of the
input that computes a value of the same criterion was called since.

Partial: `C92_target_false`, `C92_definition_false`, `C92_name_false`. -/
theorem C92_history_partial {nodes : List Node} {a0 a a1 b d : App S} {h1 h2 : List (Cmd S)} {nd : Node} {k : Kind}
    {c n : Str} {t : ℝ} (len : Nat) (hnew : ∀ o, a0.ops o = none) (hinit : initApp nodes a0 = .ok () a)
    (hnames : nodes.Pairwise fun x y => x.name ≠ y.name) (hnd : nd ∈ nodes) (hkind : nd.kind = some k)
    (hk : k.valueOf = some (c, t)) (hout : getArgumentName sValue nd.outputs = .ok n) (h0 : n ≠ []) (hat : '@' ∉ n)
    (hh1 : execAll h1 a = some a1) (hrun : compute nd.name a1 = .ok () b) (hh2 : execAll h2 b = some d)
    (hother : ∀ x ∈ nodes, Cmd.compute x.name ∈ h2 → ∀ k', x.kind = some k' → ∀ t', k'.valueOf ≠ some (c, t')) :
    ∃ p v p', S.value p b.control b.sol c = .ok (v, p') ∧ Behind b c p' ∧
      exportData n .scalar len d = .ok (some [v - t]) d := by
  obtain ⟨a', e1, e2, hr⟩ := initApp_ok hinit
  obtain ⟨_, r2, r3, _, r5⟩ := readOps_ok hr
  obtain ⟨op, o1, o2, o3⟩ := r5 hnames nd hnd k hkind
  have hs : Same (fun _ => False) a a1 := same_execAll _ (fun _ _ _ _ _ _ _ _ _ => id) hh1
  have look : ∀ o op, a1.ops o = some op → ∃ op', a.ops o = some op' ∧ op'.kind = op.kind := by
    intro o op ho
    have hk' := hs.kind o
    rw [ho] at hk'
    cases hao : a.ops o with
    | none => rw [hao] at hk'; simp at hk'
    | some q =>
      rw [hao] at hk'
      simp only [Option.map_some, Option.some.injEq, Op.fixed, Prod.mk.injEq] at hk'
      exact ⟨q, rfl, hk'.1.symm⟩
  cases ho1 : a1.ops nd.name with
  | none =>
    have hk' := hs.kind nd.name
    rw [ho1, o1] at hk'
    simp at hk'
  | some op1 =>
    obtain ⟨op', q1, q2⟩ := look _ _ ho1
    rw [o1] at q1
    cases q1
    refine C92_value_partial len ho1 (by rw [← q2, o2]; exact hk) (by rw [hs.name]; exact r2 nd hnd k c t n hkind hk hout h0)
      hat h0 hrun hh2 fun cmd hc o op2 he ho2 x t' hx hxc => ?_
    subst hxc he
    obtain ⟨op3, q3, q4⟩ := look _ _ ho2
    rcases r3 o op3 q3 with e | ⟨y, hy, y1, y2, _⟩
    · rw [e1, hnew] at e
      cases e
    · subst y1
      exact hother y hy hc _ y2 t' (by rw [q4]; exact hx)

end Plato.Mpmd
