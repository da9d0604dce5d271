import Verif.Bc.EssentialModel
import Verif.Bc.ConstraintsProps

/-!
# Essential boundary conditions enumerate the node sets (C11)
-/

namespace Plato
open Finset
variable {K : Type}

/-- Specification: the (dof, value) pairs a list of conditions stands for, as a table in input
order. `nodes b` is the node set of condition `b`. -/
def bcPairs [Div K] (D : Nat) (nodes : EssentialBC K → List Nat) (time : K)
    (bcs : List (EssentialBC K)) : List (Nat × K) :=
  bcs.flatMap fun b => (nodes b).map fun nd => (D * nd + b.dof, b.getValue time)

/-- Every schedule of one launch writes the dofs and values of the node set at the offset. -/
theorem bcGet_sat {D dof offset : Nat} {v : K} {nodes order : List Nat} {ds : List Nat}
    {vs : List K} (ho : IsSchedule order nodes.length) {p1 r1 : List Nat} {p2 r2 : List K}
    {x1 : List Nat} {x2 : List K} (hx1 : x1.length = nodes.length) (hx2 : x2.length = nodes.length)
    (hp1 : p1.length = offset) (hp2 : p2.length = offset)
    (hds : ds = p1 ++ x1 ++ r1) (hvs : vs = p2 ++ x2 ++ r2) :
    parFor order (ds, vs) (bcWrite D dof offset v nodes) =
      Res.ok (p1 ++ nodes.map (fun nd => D * nd + dof) ++ r1,
        p2 ++ List.replicate nodes.length v ++ r2) := by
  subst hds hvs
  apply Res.Sat.eq_ok
  have key := parFor_sched (body := bcWrite D dof offset v nodes) ho
    (fun S (s : List Nat × List K) => s.1 = p1 ++ (List.range nodes.length).map (fun i =>
      if i ∈ S then D * nodes.getD i 0 + dof else x1.getD i 0) ++ r1 ∧
      s.2 = p2 ++ (List.range nodes.length).map (fun i =>
        if i ∈ S then v else x2.getD i v) ++ r2)
    (s := (p1 ++ x1 ++ r1, p2 ++ x2 ++ r2)) ?_ ?_
  · refine key.mono ?_
    rintro ⟨s1, s2⟩ ⟨h1, h2⟩
    dsimp only at h1 h2
    rw [h1, h2]
    congr 1
    · congr 2
      apply List.ext_getElem
      · simp
      · intro i hi1 hi2
        have : i < nodes.length := by simpa using hi1
        simp [this]
    · congr 2
      apply List.ext_getElem
      · simp
      · intro i hi1 hi2
        have : i < nodes.length := by simpa using hi1
        simp [this]
  · dsimp only
    constructor
    · congr 2
      apply List.ext_getElem
      · simp [hx1]
      · intro i hi1 hi2
        simp [hi1]
    · congr 2
      apply List.ext_getElem
      · simp [hx2]
      · intro i hi1 hi2
        simp [hi1]
  · rintro S i ⟨s1, s2⟩ hi hiS hS ⟨h1, h2⟩
    dsimp only at h1 h2
    subst h1 h2
    unfold bcWrite
    rw [rd_eq hi]
    simp only [Res.ok_bind]
    rw [wr_eq (by simp; omega)]
    simp only [Res.ok_bind]
    rw [wr_eq (by simp; omega)]
    refine Res.Sat.ok ⟨?_, ?_⟩
    · show List.set _ _ _ = _
      rw [List.append_assoc, List.append_assoc, List.set_append_right _ _ (by omega),
        List.set_append_left _ _ (by simp; omega)]
      congr 2
      apply List.ext_getElem
      · simp
      · intro k hk1 hk2
        have hk : k < nodes.length := by simpa using hk2
        rw [List.getElem_set]
        by_cases hki : k = i
        · subst hki
          simp [hp1, hk]
        · rw [if_neg (by omega)]
          simp [hki]
    · show List.set _ _ _ = _
      rw [List.append_assoc, List.append_assoc, List.set_append_right _ _ (by omega),
        List.set_append_left _ _ (by simp; omega)]
      congr 2
      apply List.ext_getElem
      · simp
      · intro k hk1 hk2
        have hk : k < nodes.length := by simpa using hk2
        rw [List.getElem_set]
        by_cases hki : k = i
        · subst hki
          simp [hp2]
        · rw [if_neg (by omega)]
          simp [hki]

theorem length_bcPairs [Div K] (D : Nat) (nodes : EssentialBC K → List Nat) (time : K)
    (bcs : List (EssentialBC K)) :
    (bcPairs D nodes time bcs).length = (bcs.map fun b => (nodes b).length).sum := by
  unfold bcPairs
  rw [List.length_flatMap]
  simp

theorem totalLength_eq {sets : List (String × List Nat)} {nodes : EssentialBC K → List Nat}
    {bcs : List (EssentialBC K)} (h : ∀ b ∈ bcs, sets.lookup b.nsName = some (nodes b)) (n : Nat) :
    totalLength sets bcs n = Res.ok (n + (bcs.map fun b => (nodes b).length).sum) := by
  induction bcs generalizing n with
  | nil => rfl
  | cons b bs ih =>
    unfold totalLength EssentialBC.getLength findSet
    rw [h b (by simp)]
    simp only [Res.ok_bind, Res.pure_eq]
    rw [ih (fun b' hb' => h b' (by simp [hb']))]
    simp [Nat.add_assoc]

theorem getAll_eq [Zero K] [Div K] {D : Nat} {sets : List (String × List Nat)}
    {nodes : EssentialBC K → List Nat} {time : K} {orders : Nat → List Nat}
    {bcs : List (EssentialBC K)} (h : ∀ b ∈ bcs, sets.lookup b.nsName = some (nodes b))
    {launch offset : Nat}
    (ho : ∀ k (hk : k < bcs.length), IsSchedule (orders (launch + k)) (nodes bcs[k]).length)
    {p1 x1 : List Nat} {p2 x2 : List K} (hp1 : p1.length = offset) (hp2 : p2.length = offset)
    (hx1 : x1.length = (bcs.map fun b => (nodes b).length).sum)
    (hx2 : x2.length = (bcs.map fun b => (nodes b).length).sum) :
    getAll D sets time orders bcs launch offset (p1 ++ x1, p2 ++ x2) =
      Res.ok (p1 ++ (bcPairs D nodes time bcs).map Prod.fst,
        p2 ++ (bcPairs D nodes time bcs).map Prod.snd) := by
  induction bcs generalizing launch offset p1 x1 p2 x2 with
  | nil =>
    simp at hx1 hx2
    subst hx1 hx2
    simp [getAll, bcPairs]
  | cons b bs ih =>
    unfold getAll EssentialBC.get EssentialBC.getLength findSet
    rw [h b (by simp)]
    simp only [Res.ok_bind, Res.pure_eq]
    simp only [List.map_cons, List.sum_cons] at hx1 hx2
    have h0 := ho 0 (by simp)
    rw [bcGet_sat (nodes := nodes b) (x1 := x1.take (nodes b).length) (r1 := x1.drop (nodes b).length)
      (x2 := x2.take (nodes b).length) (r2 := x2.drop (nodes b).length) (p1 := p1) (p2 := p2)
      (by simpa using h0) (by simp; omega) (by simp; omega) hp1 hp2 (by simp) (by simp)]
    simp only [Res.ok_bind]
    rw [ih (fun b' hb' => h b' (by simp [hb'])) (launch := launch + 1)
      (offset := offset + (nodes b).length)
      (fun k hk => by
        have := ho (k + 1) (by simpa using hk)
        rw [show launch + 1 + k = launch + (k + 1) by omega]
        simpa using this) (by simp; omega) (by simp; omega) (by simp; omega) (by simp; omega)]
    have e1 : (nodes b).map ((fun x : Nat × K => x.1) ∘ fun nd => (D * nd + b.dof, b.getValue time)) =
        (nodes b).map fun nd => D * nd + b.dof := rfl
    simp [bcPairs, Function.comp_def, List.map_const']

/-- **C11**: for every list of conditions whose node sets exist, every previous content of the two
views and every schedule of the launches, the views hold exactly one (dof, value) pair per node of
each set, in input order. -/
theorem C11_get [Zero K] [Div K] {D : Nat} {sets : List (String × List Nat)}
    {nodes : EssentialBC K → List Nat} {time : K} {orders : Nat → List Nat}
    {bcs : List (EssentialBC K)} (h : ∀ b ∈ bcs, sets.lookup b.nsName = some (nodes b))
    (ho : ∀ k (hk : k < bcs.length), IsSchedule (orders k) (nodes bcs[k]).length)
    (s : List Nat × List K) :
    essentialGet D sets time orders bcs s =
      Res.ok ((bcPairs D nodes time bcs).map Prod.fst, (bcPairs D nodes time bcs).map Prod.snd) := by
  unfold essentialGet
  rw [totalLength_eq h 0]
  simp only [Res.ok_bind, Nat.zero_add]
  have := getAll_eq (D := D) (time := time) h (launch := 0) (offset := 0)
    (orders := orders) (fun k hk => by simpa using ho k hk)
    (p1 := []) (p2 := [])
    (x1 := resizeL 0 s.1 (bcs.map fun b => (nodes b).length).sum)
    (x2 := resizeL 0 s.2 (bcs.map fun b => (nodes b).length).sum) rfl rfl
    (by simp [resizeL]; omega) (by simp [resizeL]; omega)
  simpa using this

/-- **C11**: a missing node set is reported. -/
theorem C11_missing_set [Zero K] [Div K] {D : Nat} {sets : List (String × List Nat)} {time : K}
    {orders : Nat → List Nat} {bcs : List (EssentialBC K)} {b : EssentialBC K} (hb : b ∈ bcs)
    (hs : sets.lookup b.nsName = none) (s : List Nat × List K) :
    ∃ m, essentialGet D sets time orders bcs s = Res.err m := by
  have key : ∀ (bcs : List (EssentialBC K)) (n : Nat), b ∈ bcs →
      ∃ m, totalLength sets bcs n = Res.err m := by
    intro bcs
    induction bcs with
    | nil => intro _ h; simp at h
    | cons c bs ih =>
      intro n h
      unfold totalLength EssentialBC.getLength findSet
      cases hc : sets.lookup c.nsName with
      | none => exact ⟨_, rfl⟩
      | some l =>
        simp only [Res.ok_bind, Res.pure_eq]
        rcases List.mem_cons.1 h with rfl | h
        · rw [hs] at hc; cases hc
        · exact ih _ h
  obtain ⟨m, hm⟩ := key bcs 0 hb
  unfold essentialGet
  rw [hm]
  exact ⟨m, rfl⟩

/-- Specification of an admissible block: the value function it prescribes. -/
def BcParams.Prescribes [Zero K] (p : BcParams K) (f : K → K) : Prop :=
  (p.type? = some "Zero Value" ∧ p.func? = none ∧ f = fun _ => 0) ∨
  ((p.type? = some "Fixed Value" ∨ p.type? = some "Time Dependent") ∧
    ((∃ v, p.value? = some v ∧ p.func? = none ∧ f = fun _ => v) ∨
      p.value? = none ∧ p.func? = some f))

/-- **C11**: a block is accepted exactly if it names a side set, a known type and exactly one of
value and function; the condition then has the given component and prescribes the given function of
time divided by the scale factor of the component. -/
theorem C11_construct [Field K] {factor : Nat → Option K} {p : BcParams K} :
    ((∃ b, makeOne factor (.list p) = Res.ok b) ↔
      (∃ ns, p.sides? = some ns) ∧ ∃ f, p.Prescribes f) ∧
    ∀ b, makeOne factor (.list p) = Res.ok b →
      p.sides? = some b.nsName ∧ b.dof = p.index?.getD 0 ∧
      ∃ f, p.Prescribes f ∧ ∀ t, b.getValue t = f t / (factor (p.index?.getD 0)).getD 1 := by
  rcases p with ⟨ty, sides, idx, val, fn⟩
  cases ty with
  | none =>
    constructor
    · constructor
      · rintro ⟨b, hb⟩; cases hb
      · rintro ⟨-, f, h | h⟩ <;> simp at h
    · intro b hb; cases hb
  | some ty =>
    unfold makeOne getRequired
    simp only [Res.ok_bind]
    by_cases h0 : ty = "Zero Value"
    · subst h0
      rw [if_pos rfl]
      unfold EssentialBC.make getRequired
      cases sides with
      | none =>
        constructor
        · constructor
          · rintro ⟨b, hb⟩; cases hb
          · rintro ⟨⟨ns, h⟩, -⟩; cases h
        · intro b hb; cases hb
      | some ns =>
        cases fn with
        | none =>
          simp only [Res.ok_bind, Res.pure_eq]
          constructor
          · exact ⟨fun _ => ⟨⟨_, rfl⟩, _, Or.inl ⟨rfl, rfl, rfl⟩⟩, fun _ => ⟨_, rfl⟩⟩
          · intro b hb
            cases hb
            exact ⟨rfl, rfl, _, Or.inl ⟨rfl, rfl, rfl⟩, fun t => rfl⟩
        | some f =>
          constructor
          · constructor
            · rintro ⟨b, hb⟩; cases hb
            · rintro ⟨-, g, h | ⟨h, -⟩⟩
              · simp at h
              · rcases h with h | h <;> exact absurd (Option.some.inj h) (by decide)
          · intro b hb; cases hb
    · rw [if_neg h0]
      by_cases h1 : ty = "Fixed Value" ∨ ty = "Time Dependent"
      · rw [if_pos h1]
        unfold EssentialBC.make getRequired
        have h1' : some ty = some "Fixed Value" ∨ some ty = some "Time Dependent" := by
          simpa using h1
        cases sides with
        | none =>
          constructor
          · constructor
            · rintro ⟨b, hb⟩; cases hb
            · rintro ⟨⟨ns, h⟩, -⟩; cases h
          · intro b hb; cases hb
        | some ns =>
          cases val with
          | none =>
            cases fn with
            | none =>
              constructor
              · constructor
                · rintro ⟨b, hb⟩; cases hb
                · rintro ⟨-, f, ⟨h, -⟩ | ⟨-, ⟨v, h, -⟩ | ⟨-, h⟩⟩⟩
                  · exact absurd (Option.some.inj h) h0
                  · cases h
                  · cases h
              · intro b hb; cases hb
            | some f =>
              simp only [Res.ok_bind, Res.pure_eq]
              constructor
              · exact ⟨fun _ => ⟨⟨_, rfl⟩, f, Or.inr ⟨h1', Or.inr ⟨rfl, rfl⟩⟩⟩, fun _ => ⟨_, rfl⟩⟩
              · intro b hb
                cases hb
                exact ⟨rfl, rfl, f, Or.inr ⟨h1', Or.inr ⟨rfl, rfl⟩⟩, fun t => rfl⟩
          | some v =>
            cases fn with
            | none =>
              simp only [Res.ok_bind, Res.pure_eq]
              constructor
              · exact ⟨fun _ => ⟨⟨_, rfl⟩, _, Or.inr ⟨h1', Or.inl ⟨v, rfl, rfl, rfl⟩⟩⟩,
                  fun _ => ⟨_, rfl⟩⟩
              · intro b hb
                cases hb
                exact ⟨rfl, rfl, _, Or.inr ⟨h1', Or.inl ⟨v, rfl, rfl, rfl⟩⟩, fun t => rfl⟩
            | some f =>
              constructor
              · constructor
                · rintro ⟨b, hb⟩; cases hb
                · rintro ⟨-, g, ⟨h, -⟩ | ⟨-, ⟨v', -, h, -⟩ | ⟨h, -⟩⟩⟩
                  · exact absurd (Option.some.inj h) h0
                  · cases h
                  · cases h
              · intro b hb; cases hb
      · rw [if_neg h1]
        constructor
        · constructor
          · rintro ⟨b, hb⟩; cases hb
          · rintro ⟨-, f, ⟨h, -⟩ | ⟨h, -⟩⟩
            · exact absurd (Option.some.inj h) h0
            · rcases h with h | h
              · exact absurd (Or.inl (Option.some.inj h)) h1
              · exact absurd (Or.inr (Option.some.inj h)) h1
        · intro b hb; cases hb

/-- **C11**: the whole block is accepted exactly if every entry is an accepted sublist, and the
conditions are kept in order. -/
theorem C11_construct_all [Zero K] [One K] {factor : Nat → Option K} {es : List (BcEntry K)}
    {bs : List (EssentialBC K)} :
    makeAll factor es = Res.ok bs ↔ List.Forall₂ (fun e b => makeOne factor e = Res.ok b) es bs := by
  induction es generalizing bs with
  | nil =>
    unfold makeAll
    constructor
    · intro h; cases h; exact List.Forall₂.nil
    · intro h; cases h; rfl
  | cons e es ih =>
    unfold makeAll
    cases he : makeOne factor e with
    | ok b =>
      simp only [Res.ok_bind]
      cases hs : makeAll factor es with
      | ok bs' =>
        simp only [Res.ok_bind, Res.pure_eq]
        constructor
        · intro h; cases h; exact List.Forall₂.cons he (ih.1 hs)
        · intro h
          cases h with
          | cons h1 h2 =>
            rw [he] at h1
            cases h1
            have := ih.2 h2
            rw [hs] at this
            cases this
            rfl
      | err m =>
        constructor
        · intro h; cases h
        · intro h
          cases h with
          | cons h1 h2 => have := ih.2 h2; rw [hs] at this; cases this
      | ub =>
        constructor
        · intro h; cases h
        · intro h
          cases h with
          | cons h1 h2 => have := ih.2 h2; rw [hs] at this; cases this
    | err m =>
      constructor
      · intro h; cases h
      · intro h
        cases h with
        | cons h1 h2 => rw [he] at h1; cases h1
    | ub =>
      constructor
      · intro h; cases h
      · intro h
        cases h with
        | cons h1 h2 => rw [he] at h1; cases h1

/-- **C11**: components below the number of unknowns per node and node numbers below the number of
nodes give dofs of the system; sets without repeated nodes that are disjoint for conditions on the
same component give distinct dofs, as the constraint kernels need. -/
theorem C11_dofs [Div K] {D n : Nat} {nodes : EssentialBC K → List Nat} {time : K}
    {bcs : List (EssentialBC K)} (hidx : ∀ b ∈ bcs, b.dof < D)
    (hn : ∀ b ∈ bcs, ∀ nd ∈ nodes b, nd < n) :
    (∀ d ∈ (bcPairs D nodes time bcs).map Prod.fst, d < n * D) ∧
    ((∀ b ∈ bcs, (nodes b).Nodup) →
      bcs.Pairwise (fun b c => b.dof = c.dof → (nodes b).Disjoint (nodes c)) →
      ((bcPairs D nodes time bcs).map Prod.fst).Nodup) := by
  have e : (bcPairs D nodes time bcs).map Prod.fst =
      bcs.flatMap fun b => (nodes b).map fun nd => D * nd + b.dof := by
    unfold bcPairs
    rw [List.map_flatMap]
    simp [Function.comp_def]
  rw [e]
  constructor
  · intro d hd
    rw [List.mem_flatMap] at hd
    obtain ⟨b, hb, hd⟩ := hd
    rw [List.mem_map] at hd
    obtain ⟨nd, hnd, rfl⟩ := hd
    exact block_lt (hidx b hb) (hn b hb nd hnd)
  · intro hnd hdis
    rw [List.nodup_flatMap]
    constructor
    · intro b hb
      refine (hnd b hb).map ?_
      intro x y hxy
      have hD : 0 < D := by have := hidx b hb; omega
      exact Nat.eq_of_mul_eq_mul_left hD (by simpa using hxy)
    · refine List.Pairwise.imp_of_mem ?_ hdis
      intro b c hb hc hbc
      simp only [Function.onFun, List.disjoint_left, List.mem_map]
      rintro d ⟨x, hx, rfl⟩ ⟨y, hy, hxy⟩
      have h1 := div_block (q := y) (hidx c hc)
      have h2 := mod_block (q := y) (hidx c hc)
      rw [hxy, div_block (hidx b hb)] at h1
      rw [hxy, mod_block (hidx b hb)] at h2
      subst h1
      exact hbc h2 hx hy

/-- **C11** with C09, end to end: the conditions are enumerated and applied to a symmetric system;
every solution of the resulting system takes, at every node of every set, the value of its
condition. -/
theorem C11_prescribed [Field K] {A : Crs K} {n D : Nat} {sets : List (String × List Nat)}
    {nodes : EssentialBC K → List Nat} {time : K} {orders : Nat → List Nat}
    {bcs : List (EssentialBC K)} (h : ∀ b ∈ bcs, sets.lookup b.nsName = some (nodes b))
    (ho : ∀ k (hk : k < bcs.length), IsSchedule (orders k) (nodes bcs[k]).length)
    (s : List Nat × List K) (hA : BcMatrix A n D)
    (hsym : ∀ i j, i < n * D → j < n * D → A.dense i j = A.dense j i)
    {sched : List (List (CMicro K)) → List (Nat × CMicro K)} (hsch : ∀ p, IsMerge p (sched p))
    {o2 : List Nat} (ho2 : IsSchedule o2 (bcs.map fun b => (nodes b).length).sum)
    {rhs : List K} (hrhs : rhs.length = n * D)
    (hidx : ∀ b ∈ bcs, b.dof < D) (hn : ∀ b ∈ bcs, ∀ nd ∈ nodes b, nd < n)
    (hnd : ∀ b ∈ bcs, (nodes b).Nodup)
    (hdis : bcs.Pairwise fun b c => b.dof = c.dof → (nodes b).Disjoint (nodes c)) :
    (essentialGet D sets time orders bcs s >>= fun x =>
      applyBlockConstraints D sched o2 1 A rhs x.1 x.2).Sat fun r =>
        ∀ x : Nat → K, Solves (n * D) r.1.dense (at0 r.2) x →
          ∀ b ∈ bcs, ∀ nd ∈ nodes b, x (D * nd + b.dof) = b.getValue time := by
  rw [C11_get h ho s]
  simp only [Res.ok_bind]
  obtain ⟨hlt, hnodup⟩ := C11_dofs (time := time) hidx hn
  have hN := hnodup hnd hdis
  refine (C09_applyBlockConstraints hA hsch (by simpa [length_bcPairs] using ho2) 1 hrhs hN hlt
    (by simp)).mono ?_
  rintro ⟨A', b'⟩ hres x hx b hb nd hndm
  obtain ⟨hx1, -⟩ := (C09_solution hres hsym hN hlt x).1 hx
  have hmem : (D * nd + b.dof, b.getValue time) ∈ bcPairs D nodes time bcs := by
    unfold bcPairs
    rw [List.mem_flatMap]
    exact ⟨b, hb, List.mem_map.2 ⟨nd, hndm, rfl⟩⟩
  obtain ⟨t, ht, he⟩ := List.getElem_of_mem hmem
  have := hx1 t (by simpa using ht)
  rw [show atN _ t = _ from at0_eq (by simpa using ht), at0_eq (by simpa using ht)] at this
  simpa [he] using this

/-- A concrete case: two conditions, two node sets. -/
example : essentialGet (K := Rat) 2 [("left", [0, 3]), ("top", [2])] 0 (fun k => if k = 0 then [1, 0] else [0])
    [⟨"left", 1, 6, none, 2⟩, ⟨"top", 0, 0, some (fun t => t + 1), 1⟩] ([9, 9, 9, 9], [7]) =
    Res.ok ([1, 7, 4], [6 / 2, 6 / 2, (0 + 1) / 1]) := rfl

end Plato
