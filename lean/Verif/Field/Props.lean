import Verif.Field.Model

/-!
# Computed fields and initial states (C104)
-/

namespace Plato.Field

variable {K : Type} [Zero K]

/-- Specification of the reader of expressions for one text: with `dim` registered variables it
returns, for every node, `f` at the values of the variables at this node. -/
def Reads (read : String → Nat → List (List K) → Res (List K)) (dim : Nat) (fn : String)
    (f : (Fin dim → K) → K) : Prop :=
  ∀ (n : Nat) (vars : List (List K)), vars.length = dim → (∀ a ∈ vars, a.length = n) →
    ∃ out, read fn n vars = Res.ok out ∧ out.length = n ∧
      ∀ p, p < n → at0 out p = f fun k => at0 (vars.getD k []) p

/-- Coordinates of a node. -/
def point (dim : Nat) (coords : List K) (p : Nat) : Fin dim → K := fun k => at0 coords (p * dim + k)

theorem idx_lt {n D p k : Nat} (hp : p < n) (hk : k < D) : D * p + k < n * D := by
  have : D * (p + 1) ≤ D * n := Nat.mul_le_mul_left _ hp
  rw [Nat.mul_comm n D]
  rw [Nat.mul_add] at this
  omega

theorem idx_inj {D p q j k : Nat} (hj : j < D) (hk : k < D) (h : D * p + j = D * q + k) :
    p = q ∧ j = k := by
  have hp : p = q := by
    have h1 : (D * p + j) / D = p := by
      rw [Nat.mul_add_div (by omega), Nat.div_eq_of_lt hj, Nat.add_zero]
    have h2 : (D * q + k) / D = q := by
      rw [Nat.mul_add_div (by omega), Nat.div_eq_of_lt hk, Nat.add_zero]
    rw [← h1, ← h2, h]
  subst hp
  exact ⟨rfl, by omega⟩

/-! ## Values of a computed field -/

theorem fillNode_ok {dim n : Nat} {coords : List K} (hd : dim ≤ 3) (hc : coords.length = n * dim)
    {p : Nat} (hp : p < n) {vars : List (List K)} (hl : vars.length = 3)
    (ha : ∀ k, k < 3 → (vars.getD k []).length = n) :
    (fillNode dim coords p vars).Sat fun vs => vs.length = 3 ∧
      (∀ k, k < 3 → (vs.getD k []).length = n) ∧
      (∀ k, k < dim → at0 (vs.getD k []) p = at0 coords (p * dim + k)) ∧
      ∀ k q, q ≠ p → at0 (vs.getD k []) q = at0 (vars.getD k []) q := by
  unfold fillNode
  refine (forRange_inv (fun (m : Nat) (vs : List (List K)) => vs.length = 3 ∧
      (∀ k, k < 3 → (vs.getD k []).length = n) ∧
      (∀ k, k < m → at0 (vs.getD k []) p = at0 coords (p * dim + k)) ∧
      ∀ k q, q ≠ p → at0 (vs.getD k []) q = at0 (vars.getD k []) q) (Nat.zero_le _)
      ⟨hl, ha, fun k h => absurd h (Nat.not_lt_zero _), fun _ _ _ => rfl⟩ ?_)
  rintro k vs - hk ⟨h1, h2, h3, h4⟩
  have hi : p * dim + k < coords.length := by
    have := idx_lt (n := n) (D := dim) hp hk
    rw [Nat.mul_comm p]; omega
  have hlen := h2 k (by omega)
  have hv : vs.getD k [] = vs[k]'(by omega) := by simp [h1, show k < 3 by omega]
  have e1 : rd coords (p * dim + k) = Res.ok (at0 coords (p * dim + k)) := rd_at0 hi
  have e2 : rd vs k = Res.ok (vs.getD k []) := by rw [hv]; exact rd_eq (by omega)
  rw [e1, Res.ok_bind, e2, Res.ok_bind, wr_eq (by omega), Res.ok_bind, wr_eq (by omega),
    Res.sat_ok]
  have hset : ∀ (m : Nat) (a : List K), (vs.set k a).getD m [] = if m = k then a else vs.getD m [] := by
    intro m a
    by_cases hm : m = k
    · subst hm; simp [h1, show m < 3 by omega]
    · rw [if_neg hm]
      simp [List.getD_eq_getElem?_getD, List.getElem?_set, Ne.symm hm]
  refine ⟨by simpa using h1, fun m hm => ?_, fun m hm => ?_, fun m q hq => ?_⟩
  · rw [hset]; split
    · simpa using hlen
    · exact h2 m hm
  · rw [hset]
    by_cases he : m = k
    · subst he
      rw [if_pos rfl, at0_set (by omega), if_pos rfl]
    · rw [if_neg he]
      exact h3 m (by omega)
  · rw [hset]
    by_cases he : m = k
    · subst he
      rw [if_pos rfl, at0_set (by omega), if_neg hq]
      exact h4 m q hq
    · rw [if_neg he]
      exact h4 m q hq

/-- **C104**: a computed field has at every node the value of its expression at the coordinates of
this node, for every mesh of one to three dimensions and every schedule of the loops. -/
theorem C104_values {read : String → Nat → List (List K) → Res (List K)} {dim n : Nat}
    {coords : List K} {fn : String} {f : (Fin dim → K) → K} (hf : Reads read dim fn f)
    (hd : dim ≤ 3) (hc : coords.length = n * dim) {order order' : List Nat}
    (ho : IsSchedule order n) (ho' : IsSchedule order' n) :
    (fieldInit read order order' dim n coords fn).Sat fun v => v.length = n ∧
      ∀ p, p < n → at0 v p = f (point dim coords p) := by
  unfold fieldInit
  refine (parFor_sched ho (fun (D : Finset Nat) (vs : List (List K)) => vs.length = 3 ∧
      (∀ k, k < 3 → (vs.getD k []).length = n) ∧
      ∀ p ∈ D, ∀ k, k < dim → at0 (vs.getD k []) p = at0 coords (p * dim + k))
    ⟨List.length_replicate, ?_, by simp⟩ ?_).bind ?_
  · intro k hk
    rcases k with _ | _ | _ | k
    · simp
    · simp
    · simp
    · omega
  · rintro D p vs hp - - ⟨h1, h2, h3⟩
    refine (fillNode_ok hd hc hp h1 h2).mono ?_
    rintro vs' ⟨g1, g2, g3, g4⟩
    refine ⟨g1, g2, fun q hq k hk => ?_⟩
    by_cases hqp : q = p
    · subst hqp; exact g3 k hk
    · rw [g4 k q hqp]
      exact h3 q (by simpa [hqp] using hq) k hk
  · rintro vs ⟨h1, h2, h3⟩
    obtain ⟨out, e, hl, hv⟩ := hf n (vs.take dim) (by simp [h1, hd]) (by
      intro a ha
      obtain ⟨k, hk, rfl⟩ := List.getElem_of_mem (List.mem_of_mem_take ha)
      have := h2 k (by omega)
      simpa [hk] using this)
    rw [e, Res.ok_bind]
    refine (parFor_map ho' (fun p _ => at0 out p) ?_ List.length_replicate).mono ?_
    · intro p y hp hy
      rw [rd_at0 (by omega), Res.ok_bind, wr_eq (by omega)]
    · rintro y ⟨hy, h⟩
      refine ⟨hy, fun p hp => ?_⟩
      rw [h p hp, hv p hp]
      congr 1
      funext k
      have hk := k.2
      have : (vs.take dim).getD k [] = vs.getD k [] := by
        simp [List.getD_eq_getElem?_getD, hk]
      rw [this, h3 p (Finset.mem_range.2 hp) k hk]
      rfl

/-! ## Writing a field into a state -/

theorem getStrided_ok {n D j : Nat} {order : List Nat} (ho : IsSchedule order n) {field u : List K}
    (hf : field.length = n) (hu : u.length = n * D) (hj : j < D) :
    (getStrided order field u j D).Sat fun w => w.length = n * D ∧
      ∀ p, p < n → ∀ k, k < D →
        at0 w (D * p + k) = if k = j then at0 field p else at0 u (D * p + k) := by
  unfold getStrided
  rw [if_neg (by rw [hf, hu]; exact fun h => h rfl)]
  refine (parFor_sched ho (fun (S : Finset Nat) (w : List K) => w.length = n * D ∧
      ∀ p, p < n → ∀ k, k < D → at0 w (D * p + k) =
        if k = j ∧ p ∈ S then at0 field p else at0 u (D * p + k)) ⟨hu, by simp⟩ ?_).mono ?_
  · rintro S p w hp hS - ⟨hw, h⟩
    rw [rd_at0 (by omega), Res.ok_bind]
    have hi : ((D : Int) * (p : Int) + (j : Int)) = ((D * p + j : Nat) : Int) := by push_cast; ring
    simp only [hi]
    rw [if_neg (by omega), Int.toNat_natCast]
    have hb := idx_lt (n := n) hp hj
    rw [wr_eq (by omega), Res.sat_ok]
    refine ⟨by simpa using hw, fun q hq k hk => ?_⟩
    rw [at0_set (by omega)]
    by_cases he : D * q + k = D * p + j
    · obtain ⟨rfl, rfl⟩ := idx_inj hk hj he
      simp
    · rw [if_neg he, h q hq k hk]
      have : ¬ (k = j ∧ q = p) := by rintro ⟨rfl, rfl⟩; exact he rfl
      by_cases hkj : k = j
      · have hqp : q ≠ p := fun e => this ⟨hkj, e⟩
        simp [hkj, hqp]
      · simp [hkj]
  · rintro w ⟨hw, h⟩
    refine ⟨hw, fun p hp k hk => ?_⟩
    rw [h p hp k hk]
    simp [hp]

/-! ## Names -/

theorem lastIndex_notMem {name : String} : ∀ (ds : List String) (j : Nat) (r : Int),
    name ∉ ds → lastIndex name ds j r = r
  | [], _, _, _ => rfl
  | d :: ds, j, r, h => by
    rw [List.mem_cons, not_or] at h
    rw [lastIndex, if_neg (fun e => h.1 e.symm)]
    exact lastIndex_notMem ds (j + 1) r h.2

theorem lastIndex_get : ∀ (ds : List String) (off : Nat) (r : Int), ds.Nodup → ∀ j (h : j < ds.length),
    lastIndex ds[j] ds off r = ((off + j : Nat) : Int)
  | [], _, _, _, j, h => by simp at h
  | d :: ds, off, r, hn, j, h => by
    rw [List.nodup_cons] at hn
    rw [lastIndex]
    cases j with
    | zero =>
      rw [List.getElem_cons_zero, if_pos rfl, lastIndex_notMem ds _ _ hn.1]
      simp
    | succ j =>
      rw [List.getElem_cons_succ, lastIndex_get ds (off + 1) _ hn.2 j (by simpa using h)]
      congr 1
      omega

theorem firstIndex_notMem {name : String} : ∀ (ds : List String) (j : Nat),
    name ∉ ds → firstIndex name ds j = -1
  | [], _, _ => rfl
  | d :: ds, j, h => by
    rw [List.mem_cons, not_or] at h
    rw [firstIndex, if_neg (fun e => h.1 e.symm)]
    exact firstIndex_notMem ds (j + 1) h.2

theorem firstIndex_get : ∀ (ds : List String) (off : Nat), ds.Nodup → ∀ j (h : j < ds.length),
    firstIndex ds[j] ds off = ((off + j : Nat) : Int)
  | [], _, _, j, h => by simp at h
  | d :: ds, off, hn, j, h => by
    rw [List.nodup_cons] at hn
    rw [firstIndex]
    cases j with
    | zero => rw [List.getElem_cons_zero, if_pos rfl]; simp
    | succ j =>
      have hne : d ≠ ds[j]'(by simpa using h) := fun e => hn.1 (e ▸ List.getElem_mem _)
      rw [List.getElem_cons_succ, if_neg hne, firstIndex_get ds (off + 1) hn.2 j (by simpa using h)]
      congr 1
      omega

/-! ## Constructing the fields -/

/-- `v` holds, at the nodes, the values of `g`. -/
def Holds (n : Nat) (v : List K) (g : Nat → K) : Prop := v.length = n ∧ ∀ p, p < n → at0 v p = g p

/-- Every entry of the block is a list with an expression that can be evaluated. -/
def FieldsOk (init : String → Res (List K)) (n : Nat) (F : String → Nat → K) (ps : Params) : Prop :=
  ∀ e ∈ ps, ∃ fn, e.2 = .list (some fn) ∧ (init fn).Sat fun v => Holds n v (F fn)

theorem construct_ok {init : String → Res (List K)} {n : Nat} {F : String → Nat → K} :
    ∀ {ps : Params}, FieldsOk init n F ps → (construct init ps).Sat fun cfs =>
      List.Forall₂ (fun e cf => e.1 = cf.1 ∧ ∃ fn, e.2 = .list (some fn) ∧ Holds n cf.2 (F fn)) ps cfs
  | [], _ => by rw [construct, Res.sat_ok]; exact List.Forall₂.nil
  | e :: ps, h => by
    obtain ⟨fn, he, hv⟩ := h e (by simp)
    obtain ⟨name, e2⟩ := e
    subst he
    rw [construct]
    refine hv.bind fun v hv => (construct_ok fun e he => h e (by simp [he])).bind fun cfs hc => ?_
    rw [Res.sat_pure]
    exact List.Forall₂.cons ⟨rfl, fn, rfl, hv⟩ hc

theorem find_ok {n : Nat} {F : String → Nat → K} {c fn : String} {ps : Params}
    {cfs : List (String × List K)}
    (h : List.Forall₂ (fun e cf => e.1 = cf.1 ∧ ∃ fn, e.2 = .list (some fn) ∧ Holds n cf.2 (F fn))
      ps cfs) (hn : (ps.map Prod.fst).Nodup) (hm : (c, Entry.list (some fn)) ∈ ps) :
    ∃ v, cfs.find? (fun cf => cf.1 = c) = some (c, v) ∧ Holds n v (F fn) := by
  induction h with
  | nil => simp at hm
  | @cons e cf ps cfs h1 h2 ih =>
    rw [List.map_cons, List.nodup_cons] at hn
    obtain ⟨hname, fn', he, hv⟩ := h1
    rcases List.mem_cons.1 hm with rfl | hm'
    · obtain ⟨a, b⟩ := cf
      dsimp only at hname he hv
      subst hname
      cases he
      exact ⟨b, by simp, hv⟩
    · have hne : cf.1 ≠ c := by
        intro e'
        refine hn.1 ?_
        rw [hname, e']
        exact List.mem_map.2 ⟨_, hm', rfl⟩
      obtain ⟨v, e', hv'⟩ := ih hn.2 hm'
      exact ⟨v, by rw [List.find?_cons_of_neg (by simpa using hne), e'], hv'⟩

/-! ## Specification of the initial state -/

/-- Every list of the block "Initial State" names one of the given degrees of freedom and one of the
computed fields. -/
def StateOk (C : Params) (known : List String) (I : Params) : Prop :=
  ∀ name t, (name, Entry.list t) ∈ I → name ∈ known ∧
    ∃ c, t = some c ∧ ∃ fn, (c, Entry.list (some fn)) ∈ C

/-- The state is the one asked for: where the input names a degree of freedom, its value at every
node is the one of the computed field; every other entry is zero. -/
def Initial (C I : Params) (F : String → Nat → K) (n D : Nat) (dofs : List String) (u : List K) :
    Prop :=
  u.length = n * D ∧ ∀ p, p < n → ∀ k (h : k < dofs.length),
    (∀ c fn, (dofs[k], Entry.list (some c)) ∈ I → (c, Entry.list (some fn)) ∈ C →
      at0 u (D * p + k) = F fn p) ∧
    ((∀ t, (dofs[k], Entry.list t) ∉ I) → at0 u (D * p + k) = 0)

/-- The same relative to a state before the entries. -/
def Updated (C I : Params) (F : String → Nat → K) (n D : Nat) (dofs : List String) (u0 u : List K) :
    Prop :=
  u.length = n * D ∧ ∀ p, p < n → ∀ k (h : k < dofs.length),
    (∀ c fn, (dofs[k], Entry.list (some c)) ∈ I → (c, Entry.list (some fn)) ∈ C →
      at0 u (D * p + k) = F fn p) ∧
    ((∀ t, (dofs[k], Entry.list t) ∉ I) → at0 u (D * p + k) = at0 u0 (D * p + k))

theorem Updated.refl {C : Params} {F : String → Nat → K} {n D : Nat} {dofs : List String}
    {u : List K} (hu : u.length = n * D) : Updated C [] F n D dofs u u :=
  ⟨hu, fun _ _ _ _ => ⟨fun c fn h => by simp at h, fun _ => rfl⟩⟩

/-- An entry that is no list, or one with a name that is not in `dofs`, changes nothing. -/
theorem Updated.skip {C I : Params} {F : String → Nat → K} {n D : Nat} {dofs : List String}
    {u0 u : List K} {e : String × Entry} (he : e.2 = .other ∨ e.1 ∉ dofs)
    (h : Updated C I F n D dofs u0 u) : Updated C (e :: I) F n D dofs u0 u := by
  refine ⟨h.1, fun p hp k hk => ?_⟩
  obtain ⟨h1, h2⟩ := h.2 p hp k hk
  have hne : ∀ t, (dofs[k], Entry.list t) ≠ e := by
    rintro t rfl
    rcases he with he | he
    · cases he
    · exact he (List.getElem_mem hk)
  refine ⟨fun c fn hm hc => ?_, fun hm => h2 fun t ht => hm t (List.mem_cons_of_mem _ ht)⟩
  rcases List.mem_cons.1 hm with hm | hm
  · exact absurd hm (hne _)
  · exact h1 c fn hm hc

theorem Updated.write {C I : Params} {F : String → Nat → K} {n D : Nat} {dofs : List String}
    {u0 w u : List K} {c fn : String} (hd : dofs.Nodup) (hC : (C.map Prod.fst).Nodup) {j : Nat}
    (hj : j < dofs.length)
    (hI : (((dofs[j], Entry.list (some c)) :: I).map Prod.fst).Nodup)
    (hm : (c, Entry.list (some fn)) ∈ C)
    (hw : ∀ p, p < n → ∀ k, k < dofs.length →
      at0 w (D * p + k) = if k = j then F fn p else at0 u0 (D * p + k))
    (h : Updated C I F n D dofs w u) :
    Updated C ((dofs[j], Entry.list (some c)) :: I) F n D dofs u0 u := by
  refine ⟨h.1, fun p hp k hk => ?_⟩
  obtain ⟨h1, h2⟩ := h.2 p hp k hk
  rw [List.map_cons, List.nodup_cons] at hI
  have hnot : ∀ e, (dofs[j], e) ∉ I := fun e he => hI.1 (List.mem_map.2 ⟨_, he, rfl⟩)
  by_cases hkj : k = j
  · subst hkj
    refine ⟨fun c' fn' hm' hc' => ?_, fun hno => absurd (by simp) (hno (some c))⟩
    rcases List.mem_cons.1 hm' with e | hm'
    · have e1 : c' = c := by simpa using e
      subst e1
      have e2 : fn' = fn := by
        have := List.inj_on_of_nodup_map hC hc' hm rfl
        simpa using this
      subst e2
      rw [h2 fun t => hnot _, hw p hp k hk, if_pos rfl]
    · exact absurd hm' (hnot _)
  · have hne : dofs[k] ≠ dofs[j] := fun e => hkj ((hd.getElem_inj_iff).1 e)
    refine ⟨fun c' fn' hm' hc' => ?_, fun hno => ?_⟩
    · rcases List.mem_cons.1 hm' with e | hm'
      · exact absurd (congrArg Prod.fst e) hne
      · exact h1 c' fn' hm' hc'
    · rw [h2 fun t ht => hno t (List.mem_cons_of_mem _ ht), hw p hp k hk, if_neg hkj]

section Entries

variable {n : Nat} {order : List Nat} (ho : IsSchedule order n) {C : Params}
  {F : String → Nat → K} {cfs : List (String × List K)}
  (hcf : List.Forall₂ (fun e cf => e.1 = cf.1 ∧ ∃ fn, e.2 = Entry.list (some fn) ∧
    Holds n cf.2 (F fn)) C cfs) (hC : (C.map Prod.fst).Nodup)

include ho hcf hC

theorem getNamed_ok {D j : Nat} (hj : j < D) {c fn : String} (hm : (c, Entry.list (some fn)) ∈ C)
    {u : List K} (hu : u.length = n * D) :
    (getNamed order cfs c j D u).Sat fun w => w.length = n * D ∧
      ∀ p, p < n → ∀ k, k < D →
        at0 w (D * p + k) = if k = j then F fn p else at0 u (D * p + k) := by
  obtain ⟨v, e, hv⟩ := find_ok hcf hC hm
  unfold getNamed
  rw [e]
  refine (getStrided_ok ho hv.1 hu hj).mono ?_
  rintro w ⟨h1, h2⟩
  refine ⟨h1, fun p hp k hk => ?_⟩
  rw [h2 p hp k hk, hv.2 p hp]

theorem parEntries_ok {dofs : List String} (hd : dofs.Nodup) :
    ∀ {I : Params} {u : List K}, (I.map Prod.fst).Nodup → StateOk C dofs I →
      u.length = n * dofs.length →
      (parEntries order cfs dofs I u).Sat (Updated C I F n dofs.length dofs u)
  | [], u, _, _, hu => by rw [parEntries, Res.sat_ok]; exact Updated.refl hu
  | (name, .other) :: I, u, hI, hs, hu => by
    rw [parEntries]
    rw [List.map_cons, List.nodup_cons] at hI
    exact (parEntries_ok hd hI.2 (fun a t h => hs a t (List.mem_cons_of_mem _ h)) hu).mono
      fun _ h => h.skip (Or.inl rfl)
  | (name, .list t) :: I, u, hI, hs, hu => by
    obtain ⟨hk, c, rfl, fn, hm⟩ := hs name t (by simp)
    obtain ⟨j, hj, rfl⟩ := List.getElem_of_mem hk
    rw [parEntries, lastIndex_get dofs 0 _ hd j hj, Nat.zero_add]
    refine (getNamed_ok ho hcf hC hj hm hu).bind ?_
    rintro w ⟨hw, h⟩
    have hI' := hI
    rw [List.map_cons, List.nodup_cons] at hI'
    exact (parEntries_ok hd hI'.2 (fun a t h => hs a t (List.mem_cons_of_mem _ h)) hw).mono
      fun _ h' => h'.write hd hC hj hI hm h

theorem hypEntries_ok {dofs dots : List String} (hd : dofs.Nodup) (hr : dots.Nodup)
    (hdr : ∀ a ∈ dofs, a ∉ dots) :
    ∀ {I : Params} {u v : List K}, (I.map Prod.fst).Nodup → StateOk C (dofs ++ dots) I →
      u.length = n * dofs.length → v.length = n * dots.length →
      (hypEntries order cfs dofs dots I (u, v)).Sat fun s =>
        Updated C I F n dofs.length dofs u s.1 ∧ Updated C I F n dots.length dots v s.2
  | [], u, v, _, _, hu, hv => by
    rw [hypEntries, Res.sat_ok]; exact ⟨Updated.refl hu, Updated.refl hv⟩
  | (name, .other) :: I, u, v, hI, hs, hu, hv => by
    rw [hypEntries]
    rw [List.map_cons, List.nodup_cons] at hI
    exact (hypEntries_ok hd hr hdr hI.2 (fun a t h => hs a t (List.mem_cons_of_mem _ h)) hu hv).mono
      fun _ h => ⟨h.1.skip (Or.inl rfl), h.2.skip (Or.inl rfl)⟩
  | (name, .list t) :: I, u, v, hI, hs, hu, hv => by
    obtain ⟨hk, c, rfl, fn, hm⟩ := hs name t (by simp)
    have hI' := hI
    rw [List.map_cons, List.nodup_cons] at hI'
    have hs' : StateOk C (dofs ++ dots) I := fun a t h => hs a t (List.mem_cons_of_mem _ h)
    rw [hypEntries]
    by_cases hin : name ∈ dofs
    · obtain ⟨j, hj, rfl⟩ := List.getElem_of_mem hin
      rw [firstIndex_get dofs 0 hd j hj, Nat.zero_add, if_pos (by omega)]
      refine (getNamed_ok ho hcf hC hj hm hu).bind ?_
      rintro w ⟨hw, h⟩
      exact (hypEntries_ok hd hr hdr hI'.2 hs' hw hv).mono fun _ h' =>
        ⟨h'.1.write hd hC hj hI hm h, h'.2.skip (Or.inr (hdr _ hin))⟩
    · have hin' : name ∈ dots := by
        rcases List.mem_append.1 hk with h | h
        · exact absurd h hin
        · exact h
      obtain ⟨j, hj, rfl⟩ := List.getElem_of_mem hin'
      rw [firstIndex_notMem dofs 0 hin, if_neg (by omega), firstIndex_get dots 0 hr j hj,
        Nat.zero_add, if_pos (by omega)]
      refine (getNamed_ok ho hcf hC hj hm hv).bind ?_
      rintro w ⟨hw, h⟩
      exact (hypEntries_ok hd hr hdr hI'.2 hs' hu hw).mono fun _ h' =>
        ⟨h'.1.skip (Or.inr hin), h'.2.write hr hC hj hI hm h⟩

end Entries

theorem at0_zeros (m i : Nat) : at0 (List.replicate m (0 : K)) i = 0 := by
  by_cases h : i < m <;> simp [at0, List.getD_eq_getElem?_getD, List.getElem?_replicate, h]

theorem Updated.initial {C I : Params} {F : String → Nat → K} {n D : Nat} {dofs : List String}
    {m : Nat} {u : List K} (h : Updated C I F n D dofs (List.replicate m 0) u) :
    Initial C I F n D dofs u :=
  ⟨h.1, fun p hp k hk => ⟨(h.2 p hp k hk).1, fun hno => by
    rw [(h.2 p hp k hk).2 hno, at0_zeros]⟩⟩

/-- An input with both blocks, names that are different from each other, and expressions that can be
evaluated. -/
structure InputOk (init : String → Res (List K)) (n : Nat) (F : String → Nat → K) (inp : Input)
    (C I : Params) : Prop where
  computed : inp.computed = some C
  initial : inp.initial = some I
  nodupC : (C.map Prod.fst).Nodup
  nodupI : (I.map Prod.fst).Nodup
  fields : FieldsOk init n F C

/-- **C104**, parabolic problem, for residuals that give one name per degree of freedom and inputs
that name only those: the initial state is the one asked for, for every mesh, order of the entries
and schedule.  `_partial`: unknown names (`C104_unknown_name_false`) and residuals with too many
names (`C104_planar_false`) are excluded. -/
theorem C104_parabolic_partial {init : String → Res (List K)} {n D : Nat} {F : String → Nat → K}
    {inp : Input} {C I : Params} (hi : InputOk init n F inp C I) {dofs : List String}
    (hd : dofs.Nodup) (hD : dofs.length = D) (hs : StateOk C dofs I) {order : List Nat}
    (ho : IsSchedule order n) :
    (parabolic init order n D dofs inp).Sat (Initial C I F n D dofs) := by
  subst hD
  unfold parabolic withFields
  rw [hi.computed, hi.initial, constructed, bind_assoc]
  refine (construct_ok hi.fields).bind fun cfs hcf => ?_
  rw [Res.pure_eq, Res.ok_bind]
  exact (parEntries_ok ho hcf hi.nodupC hd hi.nodupI hs List.length_replicate).mono
    fun _ h => h.initial

/-- **C104**, hyperbolic problem: initial displacements and velocities are the ones asked for.
`_partial`: residuals with too many names (`C104_planar_false`) are excluded. -/
theorem C104_hyperbolic_partial {init : String → Res (List K)} {n D : Nat} {F : String → Nat → K}
    {inp : Input} {C I : Params} (hi : InputOk init n F inp C I) {dofs dots : List String}
    (hd : dofs.Nodup) (hr : dots.Nodup) (hdr : ∀ a ∈ dofs, a ∉ dots) (hD : dofs.length = D)
    (hR : dots.length = D) (hs : StateOk C (dofs ++ dots) I) {order : List Nat}
    (ho : IsSchedule order n) :
    (hyperbolic init order n D dofs dots inp).Sat fun s =>
      Initial C I F n D dofs s.1 ∧ Initial C I F n D dots s.2 := by
  unfold hyperbolic withFields
  rw [hi.computed, hi.initial, constructed, bind_assoc]
  refine (construct_ok hi.fields).bind fun cfs hcf => ?_
  rw [Res.pure_eq, Res.ok_bind]
  have := hypEntries_ok ho hcf hi.nodupC hd hr hdr hi.nodupI hs
    (u := List.replicate (n * D) 0) (v := List.replicate (n * D) 0)
    (by rw [hD]; exact List.length_replicate) (by rw [hR]; exact List.length_replicate)
  rw [hD, hR] at this
  exact this.mono fun _ h => ⟨h.1.initial, h.2.initial⟩

end Plato.Field
