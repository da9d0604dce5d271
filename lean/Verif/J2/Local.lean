import Verif.J2.Model
import Verif.Mech.VectorWorkset

/-!
# The function of local unknowns over the domains of a mesh

Closed forms of the worksets, of the four kernels that store results and of the loop over the domains, for
every evaluator that works cell by cell and for all orders in which parallel loops may run.
-/

namespace Plato.J2
open Finset Plato Plato.Mech

variable {K R : Type}

/-! ## What the theorems are about -/

/-- All numbers of a cell: global state and its previous value, local state and its previous value, control,
coordinates. -/
structure CellData (R : Type) where
  u : Nat → R
  up : Nat → R
  c : Nat → R
  cp : Nat → R
  z : Nat → R
  x : Nat → Nat → R

/-- The numbers of cell `cell` of the mesh, passed through the makers of the worksets. -/
def cellData [Zero K] (M : FeModel) (nl : Nat) (mk : Makers K R) (A : Args K) (cell : Nat) : CellData R where
  u l := mk.u l (at0 A.u (cellDof M.npc M.ndof M.c2n cell l))
  up l := mk.up l (at0 A.up (cellDof M.npc M.ndof M.c2n cell l))
  c i := mk.c i (at0 A.c (cell * nl + i))
  cp i := mk.cp i (at0 A.cp (cell * nl + i))
  z a := mk.z a (at0 A.z (cellNode M.npc M.c2n cell a))
  x a k := mk.x (a * M.dim + k) (at0 A.x (M.dim * cellNode M.npc M.c2n cell a + k))

/-- Equal in all entries that exist. -/
structure CellData.Same (M : FeModel) (nl : Nat) (D D' : CellData R) : Prop where
  u : ∀ l, l < M.npc * M.ndof → D.u l = D'.u l
  up : ∀ l, l < M.npc * M.ndof → D.up l = D'.up l
  c : ∀ i, i < nl → D.c i = D'.c i
  cp : ∀ i, i < nl → D.cp i = D'.cp i
  z : ∀ a, a < M.npc → D.z a = D'.z a
  x : ∀ a k, a < M.npc → k < M.dim → D.x a k = D'.x a k

/-- Row `c` of the worksets. -/
def LocalWs.row (w : LocalWs R) (c : Nat) : CellData R :=
  ⟨w.global.e c, w.prevGlobal.e c, w.locl.e c, w.prevLocl.e c, w.control.e c, w.config.e c⟩

/-- Extents of the worksets of `n` cells. -/
structure LocalWs.Ok (M : FeModel) (nl n : Nat) (w : LocalWs R) : Prop where
  g0 : w.global.d0 = n
  g1 : w.global.d1 = M.npc * M.ndof
  q0 : w.prevGlobal.d0 = n
  q1 : w.prevGlobal.d1 = M.npc * M.ndof
  c0 : w.locl.d0 = n
  c1 : w.locl.d1 = nl
  p0 : w.prevLocl.d0 = n
  p1 : w.prevLocl.d1 = nl
  z0 : w.control.d0 = n
  z1 : w.control.d1 = M.npc
  x0 : w.config.d0 = n
  x1 : w.config.d1 = M.npc
  x2 : w.config.d2 = M.dim

/-- Lengths of the arguments. -/
structure Args.Ok (M : FeModel) (nl : Nat) (A : Args K) : Prop where
  u : A.u.length = M.nn * M.ndof
  up : A.up.length = M.nn * M.ndof
  c : A.c.length = M.nc * nl
  cp : A.cp.length = M.nc * nl
  z : A.z.length = M.nn
  x : A.x.length = M.nn * M.dim

/-- Cells of domain `k`. -/
def dom (M : FeModel) (k : Nat) : List Nat := M.domains[k]?.getD []

/-- The domains are blocks of cells: none is empty, none names a cell twice, no two share a cell. -/
structure Blocks (M : FeModel) : Prop where
  nonempty : ∀ k, k < M.domains.length → dom M k ≠ []
  nodup : ∀ k, k < M.domains.length → (dom M k).Nodup
  disjoint : ∀ j k, j < M.domains.length → k < M.domains.length → j ≠ k → ∀ c ∈ dom M j, c ∉ dom M k

/-- Orders of the loops over the cells of each domain. -/
def LSched (M : FeModel) (sch : Nat → Nat → List Nat) : Prop :=
  ∀ k j, k < M.domains.length → j < 7 → IsSchedule (sch k j) (dom M k).length

/-- The evaluator of domain `k` computes, for every previous content of the result, the function `F k` of
the numbers of each cell. -/
def RowWise (M : FeModel) (nl : Nat) (ev : LocalEv R) (F : Nat → CellData R → Nat → R) : Prop :=
  ∀ k w out (D : Nat → CellData R), k < M.domains.length → w.Ok M nl (dom M k).length →
    out.d0 = (dom M k).length → out.d1 = nl → (∀ c, c < (dom M k).length → (w.row c).Same M nl (D c)) →
    (ev k w out).Sat fun r => r.d0 = (dom M k).length ∧ r.d1 = nl ∧
      ∀ c i, c < (dom M k).length → i < nl → r.e c i = F k (D c) i

/-! ## Loops that store by cell -/

theorem dom_mem {M : FeModel} {k : Nat} (hk : k < M.domains.length) : dom M k ∈ M.domains := by
  unfold dom
  rw [List.getElem?_eq_getElem hk]
  exact List.getElem_mem hk

theorem dom_lt {M : FeModel} (hM : M.Ok) {k : Nat} (hk : k < M.domains.length) {c : Nat} (hc : c ∈ dom M k) :
    c < M.nc := hM.cells _ (dom_mem hk) c hc

theorem atN_mem {l : List Nat} {c : Nat} (hc : c < l.length) : atN l c ∈ l := by
  have : atN l c = l[c] := at0_eq hc
  rw [this]
  exact List.getElem_mem hc

theorem mem_atN {l : List Nat} {x : Nat} (h : x ∈ l) : ∃ c, c < l.length ∧ atN l c = x := by
  obtain ⟨c, hc, h⟩ := List.getElem_of_mem h
  exact ⟨c, hc, (at0_eq hc).trans h⟩

theorem atN_inj {l : List Nat} (hn : l.Nodup) {c c' : Nat} (hc : c < l.length) (hc' : c' < l.length)
    (h : atN l c = atN l c') : c = c' := by
  have e : atN l c = l[c] := at0_eq hc
  have e' : atN l c' = l[c'] := at0_eq hc'
  rw [e, e'] at h
  exact (hn.getElem_inj_iff).1 h

/-- A parallel loop over the cells of a block that stores the result of each cell at the place of the cell. -/
theorem parFor_store {σ α : Type} {nc : Nat} {cells order : List Nat} {body : Nat → σ → Res σ} {s : σ}
    (hs : IsSchedule order cells.length) (hn : cells.Nodup) (hlt : ∀ c ∈ cells, c < nc)
    (Inv : σ → Prop) (get : σ → Nat → α) (val : Nat → α) (h0 : Inv s)
    (hb : ∀ c s, c < cells.length → Inv s → (body c s).Sat fun s' => Inv s' ∧
      get s' (atN cells c) = val c ∧ ∀ cell, cell < nc → cell ≠ atN cells c → get s' cell = get s cell) :
    (parFor order s body).Sat fun s' => Inv s' ∧ (∀ c, c < cells.length → get s' (atN cells c) = val c) ∧
      ∀ cell, cell < nc → cell ∉ cells → get s' cell = get s cell := by
  refine (parFor_sched hs (fun D s' => Inv s' ∧ (∀ c ∈ D, c < cells.length → get s' (atN cells c) = val c) ∧
    ∀ cell, cell < nc → cell ∉ cells → get s' cell = get s cell) ⟨h0, by simp, fun _ _ _ => rfl⟩ ?_).mono ?_
  · rintro D c s' hc hD - ⟨i1, i2, i3⟩
    refine (hb c s' hc i1).mono ?_
    rintro s'' ⟨j1, j2, j3⟩
    refine ⟨j1, ?_, ?_⟩
    · intro c' hc' hl
      by_cases h : c' = c
      · rw [h]; exact j2
      · rw [j3 _ (hlt _ (atN_mem hl)) fun e => h (atN_inj hn hl hc e)]
        exact i2 c' ((Finset.mem_insert.1 hc').resolve_left h) hl
    · intro cell h1 h2
      rw [j3 cell h1 fun e => h2 (e ▸ atN_mem hc)]
      exact i3 cell h1 h2
  · rintro s' ⟨i1, i2, i3⟩
    exact ⟨i1, fun c hc => i2 c (Finset.mem_range.2 hc) hc, i3⟩

/-- The loop over the domains, for bodies that store the results of the cells of their domain. -/
theorem overCells_store {σ α : Type} {M : FeModel} (hM : M.Ok) (hB : Blocks M)
    {body : List Nat → Nat → σ → Res σ} {s : σ}
    (Inv : σ → Prop) (get : σ → Nat → α) (val : Nat → Nat → α) (h0 : Inv s)
    (hb : ∀ k s', k < M.domains.length → Inv s' → (∀ cell ∈ dom M k, get s' cell = get s cell) →
      (body (dom M k) k s').Sat fun s'' => Inv s'' ∧ (∀ cell ∈ dom M k, get s'' cell = val k cell) ∧
        ∀ cell, cell < M.nc → cell ∉ dom M k → get s'' cell = get s' cell) :
    (overCells M body s).Sat fun s' => Inv s' ∧
      (∀ k, k < M.domains.length → ∀ cell ∈ dom M k, get s' cell = val k cell) ∧
      ∀ cell, cell < M.nc → (∀ k, k < M.domains.length → cell ∉ dom M k) → get s' cell = get s cell := by
  unfold overCells
  refine (forRange_inv (fun j s' => Inv s' ∧
    (∀ k, k < j → k < M.domains.length → ∀ cell ∈ dom M k, get s' cell = val k cell) ∧
    ∀ cell, cell < M.nc → (∀ k, k < j → k < M.domains.length → cell ∉ dom M k) → get s' cell = get s cell)
    (Nat.zero_le _) ⟨h0, by intros; omega, fun _ _ _ => rfl⟩ ?_).mono ?_
  · rintro j s' - hj ⟨i1, i2, i3⟩
    have e : rd M.domains j = .ok (dom M j) := by
      unfold dom
      rw [List.getElem?_eq_getElem hj]
      simp [rd, hj]
    rw [e, Res.ok_bind]
    refine (hb j s' hj i1 fun cell hc => i3 cell (dom_lt hM hj hc) fun k hk hk' hm =>
      hB.disjoint k j hk' hj (by omega) cell hm hc).mono ?_
    rintro s'' ⟨j1, j2, j3⟩
    refine ⟨j1, ?_, ?_⟩
    · intro k hk hk' cell hc
      by_cases h : k = j
      · subst h; exact j2 cell hc
      · rw [j3 cell (dom_lt hM hk' hc) (hB.disjoint k j hk' hj h cell hc)]
        exact i2 k (by omega) hk' cell hc
    · intro cell h1 h2
      rw [j3 cell h1 (h2 j (by omega) hj)]
      exact i3 cell h1 fun k hk hk' => h2 k (by omega) hk'
  · rintro s' ⟨i1, i2, i3⟩
    exact ⟨i1, fun k hk => i2 k hk hk, fun cell h1 h2 => i3 cell h1 fun k hk _ => h2 k hk⟩

/-! ## Worksets -/

theorem worksetLocal_ok [Zero K] {mk : Nat → K → R} {nl nc n : Nat} {dm : Option (List Nat)} {c : List K}
    {order : List Nat} {ws : V2 R} (hd : DomOk dm n nc) (hc : c.length = nc * nl) (h0 : ws.d0 = n)
    (h1 : ws.d1 = nl) (hs : IsSchedule order n) :
    (worksetLocal mk nl dm c order ws).Sat fun w => w.d0 = n ∧ w.d1 = nl ∧ ∀ cell i, cell < n → i < nl →
      w.e cell i = mk i (at0 c (gcell dm cell * nl + i)) := by
  unfold worksetLocal
  have := parFor_rows (y := ws) hs (body := fun cell ws => do
    let gc ← cellOf dm cell
    forRange 0 nl ws fun i ws => do
      let a ← rd c (gc * nl + i)
      vwr2 ws cell i (mk i a)) (fun cell f i => if i < nl then mk i (at0 c (gcell dm cell * nl + i)) else f i) (by
      intro cell z hcell z0 z1
      rw [cellOf_eq hd hcell, Res.ok_bind]
      conv_lhs => rw [← V2.row_self z cell]
      rw [forRange_row (fun i _ => mk i (at0 c (gcell dm cell * nl + i)))]
      intro j f hj
      have hp : gcell dm cell * nl + j < c.length := by
        rw [hc, Nat.mul_comm _ nl, Nat.mul_comm nc]
        rw [Nat.mul_comm nl nc]
        exact block_lt hj (hd.1 cell hcell)
      rw [rd_at0 hp, Res.ok_bind, vwr2_row (by omega) (by omega)])
  rw [this, Res.sat_ok]
  refine ⟨h0, h1, fun cell i hcell hi => ?_⟩
  simp [hcell, hi]

/-- The six worksets of a domain. -/
theorem localWs_ok [Zero K] [Zero R] {M : FeModel} (hM : M.Ok) {nl : Nat} {mk : Makers K R} {A : Args K}
    (hA : A.Ok M nl) {cells : List Nat} (hc : ∀ c ∈ cells, c < M.nc) {domU : Option (List Nat)}
    (hU : DomOk domU cells.length M.nc) (hU' : ∀ c, c < cells.length → gcell domU c = atN cells c)
    {sch : Nat → List Nat} (hs : ∀ j, j < 6 → IsSchedule (sch j) cells.length) :
    (localWs M nl mk domU cells sch A).Sat fun w => w.Ok M nl cells.length ∧
      ∀ c, c < cells.length → (w.row c).Same M nl (cellData M nl mk A (atN cells c)) := by
  have hd : DomOk (some cells) cells.length M.nc := domOk_of_mem hc
  unfold localWs
  refine Res.Sat.bind (worksetConfig_ok hM.mesh hd hA.x rfl rfl rfl (hs 0 (by omega))) ?_
  rintro x ⟨x0, x1, x2, x3⟩
  refine Res.Sat.bind (workset_ok hM.mesh hU hA.u rfl rfl (hs 1 (by omega))) ?_
  rintro u ⟨u0, u1, u2⟩
  refine Res.Sat.bind (workset_ok hM.mesh hd hA.up rfl rfl (hs 2 (by omega))) ?_
  rintro up ⟨v0, v1, v2⟩
  refine Res.Sat.bind (worksetLocal_ok hd hA.c rfl rfl (hs 3 (by omega))) ?_
  rintro c ⟨c0, c1, c2⟩
  refine Res.Sat.bind (worksetLocal_ok hd hA.cp rfl rfl (hs 4 (by omega))) ?_
  rintro cp ⟨p0, p1, p2⟩
  refine Res.Sat.bind (workset_ok (d := 1) hM.mesh hd (by rw [hA.z, Nat.mul_one]) rfl (by simp)
    (hs 5 (by omega))) ?_
  rintro z ⟨z0, z1, z2⟩
  rw [Res.pure_eq, Res.sat_ok]
  refine ⟨⟨u0, u1, v0, v1, c0, c1, p0, p1, z0, by rw [z1, Nat.mul_one], x0, x1, x2⟩, fun b hb => ?_⟩
  refine ⟨fun l hl => ?_, fun l hl => v2 b l hb hl, fun i hi => c2 b i hb hi, fun i hi => p2 b i hb hi,
    fun a ha => ?_, fun a k ha hk => x3 b a k hb ha hk⟩
  · have := u2 b l hb hl
    rw [hU' b hb] at this
    exact this
  · have := z2 b a hb (by omega)
    unfold cellDof at this
    rw [Nat.div_one, Nat.mod_one, Nat.one_mul, Nat.add_zero] at this
    exact this

theorem localResults_ok [Zero K] [Zero R] {M : FeModel} (hM : M.Ok) {nl : Nat} {mk : Makers K R} {A : Args K}
    (hA : A.Ok M nl) {ev : LocalEv R} {F : Nat → CellData R → Nat → R} (hev : RowWise M nl ev F) {k : Nat}
    (hk : k < M.domains.length) {domU : Option (List Nat)} (hU : DomOk domU (dom M k).length M.nc)
    (hU' : ∀ c, c < (dom M k).length → gcell domU c = atN (dom M k) c)
    {sch : Nat → List Nat} (hs : ∀ j, j < 6 → IsSchedule (sch j) (dom M k).length) :
    (localResults M nl mk domU ev (dom M k) k sch A).Sat fun r => r.d0 = (dom M k).length ∧ r.d1 = nl ∧
      ∀ c i, c < (dom M k).length → i < nl → r.e c i = F k (cellData M nl mk A (atN (dom M k) c)) i := by
  unfold localResults
  refine Res.Sat.bind (localWs_ok hM hA (fun c hc => dom_lt hM hk hc) hU hU' hs) ?_
  rintro w ⟨h1, h2⟩
  exact hev k w _ _ hk h1 rfl rfl h2

/-! ## Kernels that store results -/

theorem size_ne {n nl : Nat} (hn : n ≠ 0) (hnl : nl ≠ 0) {v : V2 R} (h0 : v.d0 = n) (h1 : v.d1 = nl) :
    v.size ≠ 0 := by
  unfold V2.size
  rw [h0, h1]
  exact Nat.mul_ne_zero hn hnl

theorem local_lt {nl nc cell i : Nat} (hc : cell < nc) (hi : i < nl) : cell * nl + i < nc * nl := by
  calc cell * nl + i < cell * nl + nl := by omega
    _ = (cell + 1) * nl := by ring
    _ ≤ nc * nl := Nat.mul_le_mul_right _ hc

theorem local_inj {nl cell cell' i i' : Nat} (hi : i < nl) (hi' : i' < nl)
    (h : cell * nl + i = cell' * nl + i') : cell = cell' ∧ i = i' := by
  have e1 := div_block (q := cell) hi
  have e2 := div_block (q := cell') hi'
  rw [Nat.mul_comm] at e1 e2
  have : cell = cell' := by rw [← e1, ← e2, h]
  subst this
  exact ⟨rfl, by omega⟩

section Store
variable {nl nc : Nat} {cells order : List Nat}

/-- One iteration of `flatten_vector_workset`. -/
theorem flatten_step [Zero K] {input : V2 K} {cell gc : Nat} {out : List K} (hg : gc < nc)
    (h0 : cell < input.d0) (h1 : input.d1 = nl) (ho : out.length = nc * nl) :
    (forRange 0 nl out fun i out => do
      let a ← vrd2 input cell i
      wr out (gc * nl + i) a).Sat fun o => o.length = nc * nl ∧ (∀ i, i < nl → at0 o (gc * nl + i) = input.e cell i) ∧
        ∀ c', c' < nc → c' ≠ gc → ∀ i, i < nl → at0 o (c' * nl + i) = at0 out (c' * nl + i) := by
  refine (forRange_inv (fun j o => o.length = nc * nl ∧ (∀ i, i < j → i < nl → at0 o (gc * nl + i) = input.e cell i) ∧
    ∀ c', c' < nc → c' ≠ gc → ∀ i, i < nl → at0 o (c' * nl + i) = at0 out (c' * nl + i)) (Nat.zero_le _)
    ⟨ho, by intros; omega, fun _ _ _ _ _ => rfl⟩ ?_).mono ?_
  · rintro j o - hj ⟨o0, o1, o2⟩
    have hp := local_lt hg hj
    rw [vrd2_ok h0 (by omega), Res.ok_bind, wr_eq (by omega), Res.sat_ok]
    refine ⟨by rw [List.length_set, o0], ?_, ?_⟩
    · intro i hi hi'
      rw [at0_set (by omega)]
      by_cases h : i = j
      · subst h; simp
      · rw [if_neg (by omega)]
        exact o1 i (by omega) hi'
    · intro c' hc' hne i hi
      rw [at0_set (by omega), if_neg fun h => hne (local_inj hi hj h).1]
      exact o2 c' hc' hne i hi
  · rintro o ⟨o0, o1, o2⟩
    exact ⟨o0, fun i hi => o1 i hi hi, o2⟩

/-- `flatten_vector_workset` for a domain stores the rows at the places of the cells. -/
theorem flatten_ok [Zero K] (hn0 : cells ≠ []) (hnl : nl ≠ 0) (hn : cells.Nodup) (hlt : ∀ c ∈ cells, c < nc)
    (hs : IsSchedule order cells.length) {input : V2 K} (i0 : input.d0 = cells.length) (i1 : input.d1 = nl)
    {out : List K} (ho : out.length = nc * nl) :
    (flatten nl (some cells) cells.length input order out).Sat fun o => o.length = nc * nl ∧
      (∀ c, c < cells.length → ∀ i, i < nl → at0 o (atN cells c * nl + i) = input.e c i) ∧
      ∀ cell, cell < nc → cell ∉ cells → ∀ i, i < nl → at0 o (cell * nl + i) = at0 out (cell * nl + i) := by
  have hl : cells.length ≠ 0 := by simpa using hn0
  have hnc : nc ≠ 0 := by
    obtain ⟨a, ha⟩ := List.exists_mem_of_ne_nil _ hn0
    have := hlt a ha
    omega
  unfold flatten
  rw [if_neg (size_ne hl hnl i0 i1), if_neg (by rw [ho]; exact Nat.mul_ne_zero hnc hnl), if_neg hl]
  have key := parFor_store (α := Fin nl → K) (nc := nc) (s := out) (body := fun cell out => do
    let gc ← cellOf (some cells) cell
    forRange 0 nl out fun i out => do
      let a ← vrd2 input cell i
      wr out (gc * nl + i) a) hs hn hlt (fun o : List K => o.length = nc * nl)
    (fun o cell i => at0 o (cell * nl + i)) (fun c i => input.e c i) ho (by
      intro c s hc hI
      rw [cellOf_eq (domOk_of_mem hlt) hc, Res.ok_bind]
      refine (flatten_step (hlt _ (atN_mem hc)) (by omega) i1 hI).mono ?_
      rintro o ⟨o0, o1, o2⟩
      exact ⟨o0, funext fun i => o1 i i.2, fun cell h1 h2 => funext fun i => o2 cell h1 h2 i i.2⟩)
  refine key.mono ?_
  rintro o ⟨o0, o1, o2⟩
  exact ⟨o0, fun c hc i hi => congrFun (o1 c hc) ⟨i, hi⟩,
    fun cell h1 h2 i hi => congrFun (o2 cell h1 h2) ⟨i, hi⟩⟩

/-- `assemble_vector_workset` stores the rows at the rows of the cells. -/
theorem assembleWorkset_ok [Zero K] (hn0 : cells ≠ []) (hnl : nl ≠ 0) (hn : cells.Nodup)
    (hlt : ∀ c ∈ cells, c < nc) (hs : IsSchedule order cells.length) {input : V2 K}
    (i0 : input.d0 = cells.length) (i1 : input.d1 = nl) {out : V2 K} (o0 : out.d0 = nc) (o1 : out.d1 = nl) :
    (assembleWorkset nl cells input order out).Sat fun o => (o.d0 = nc ∧ o.d1 = nl) ∧
      (∀ c, c < cells.length → ∀ i, i < nl → o.e (atN cells c) i = input.e c i) ∧
      ∀ cell, cell < nc → cell ∉ cells → ∀ i, i < nl → o.e cell i = out.e cell i := by
  have hl : cells.length ≠ 0 := by simpa using hn0
  have hnc : nc ≠ 0 := by
    obtain ⟨a, ha⟩ := List.exists_mem_of_ne_nil _ hn0
    have := hlt a ha
    omega
  unfold assembleWorkset
  rw [if_neg (size_ne hl hnl i0 i1), if_neg (size_ne hnc hnl o0 o1), if_neg hl]
  have key := parFor_store (α := Fin nl → K) (nc := nc) (s := out) (body := fun cell out => do
    let gc ← rd cells cell
    forRange 0 nl out fun i out => do
      let a ← vrd2 input cell i
      vwr2 out gc i a) hs hn hlt (fun o : V2 K => o.d0 = nc ∧ o.d1 = nl)
    (fun o cell i => o.e cell i) (fun c i => input.e c i) ⟨o0, o1⟩ (by
      rintro c s hc ⟨s0, s1⟩
      have hg := hlt _ (atN_mem hc)
      rw [rd_atN hc, Res.ok_bind]
      have e := forRange_row (n := nl) (i := atN cells c) (z := s) (body := fun i out => do
          let a ← vrd2 input c i
          vwr2 out (atN cells c) i a) (fun i _ => input.e c i) (s.e (atN cells c)) (by
        intro j f hj
        rw [vrd2_ok (by omega) (by omega), Res.ok_bind, vwr2_row (by omega) (by omega)])
      rw [V2.row_self] at e
      rw [e, Res.sat_ok]
      refine ⟨⟨s0, s1⟩, funext fun i => by simp [V2.row], fun cell _ hne => funext fun i => by simp [V2.row, hne]⟩)
  refine key.mono ?_
  rintro o ⟨o0, o1, o2⟩
  exact ⟨o0, fun c hc i hi => congrFun (o1 c hc) ⟨i, hi⟩,
    fun cell h1 h2 i hi => congrFun (o2 cell h1 h2) ⟨i, hi⟩⟩

/-- `transform_ad_type_to_pod_3Dview` for a domain stores the derivatives at the places of the cells. -/
theorem toPod_ok {cols : Nat} (hn0 : cells ≠ []) (hnl : nl ≠ 0) (hcol : cols ≠ 0) (hn : cells.Nodup)
    (hlt : ∀ c ∈ cells, c < nc) (hs : IsSchedule order cells.length) {input : V2 Fad}
    (i0 : input.d0 = cells.length) (i1 : input.d1 = nl) {out : V3 ℝ} (o0 : out.d0 = nc) (o1 : out.d1 = nl)
    (o2 : out.d2 = cols) :
    (toPod nl cols cells input order out).Sat fun o => (o.d0 = nc ∧ o.d1 = nl ∧ o.d2 = cols) ∧
      (∀ c, c < cells.length → ∀ i j, i < nl → j < cols → o.e (atN cells c) i j = (input.e c i).dx j) ∧
      ∀ cell, cell < nc → cell ∉ cells → ∀ i j, i < nl → j < cols → o.e cell i j = out.e cell i j := by
  have hl : cells.length ≠ 0 := by simpa using hn0
  have hnc : nc ≠ 0 := by
    obtain ⟨a, ha⟩ := List.exists_mem_of_ne_nil _ hn0
    have := hlt a ha
    omega
  unfold toPod
  rw [if_neg (size_ne hl hnl i0 i1), if_neg hl, if_neg (by
    unfold V3.size
    rw [o0, o1, o2]
    exact Nat.mul_ne_zero (Nat.mul_ne_zero hnc hnl) hcol)]
  have key := parFor_store (α := Fin nl → Fin cols → ℝ) (nc := nc) (s := out) (body := fun cell out => do
    let gc ← rd cells cell
    forRange 0 nl out fun i out =>
      forRange 0 cols out fun j out => do
        let a ← vrd2 input cell i
        vwr3 out gc i j (a.dx j)) hs hn hlt (fun o : V3 ℝ => o.d0 = nc ∧ o.d1 = nl ∧ o.d2 = cols)
    (fun o cell i j => o.e cell i j) (fun c i j => (input.e c i).dx j) ⟨o0, o1, o2⟩ (by
      rintro c s hc ⟨s0, s1, s2⟩
      have hg := hlt _ (atN_mem hc)
      rw [rd_atN hc, Res.ok_bind]
      have e := forRange_cell (n := nl) (m := cols) (i := atN cells c) (z := s) (body := fun i j out => do
          let a ← vrd2 input c i
          vwr3 out (atN cells c) i j (a.dx j)) (fun i j _ => (input.e c i).dx j) (s.e (atN cells c)) (by
        intro r j f hr hj
        rw [vrd2_ok (by omega) (by omega), Res.ok_bind, vwr3_cell (by omega) (by omega) (by omega)])
      rw [V3.cell_self] at e
      rw [e, Res.sat_ok]
      refine ⟨⟨s0, s1, s2⟩, funext fun i => funext fun j => by simp [V3.cell],
        fun cell _ hne => funext fun i => funext fun j => by simp [V3.cell, hne]⟩)
  refine key.mono ?_
  rintro o ⟨o0, o1, o2⟩
  exact ⟨o0, fun c hc i j hi hj => congrFun (congrFun (o1 c hc) ⟨i, hi⟩) ⟨j, hj⟩,
    fun cell h1 h2 i j hi hj => congrFun (congrFun (o2 cell h1 h2) ⟨i, hi⟩) ⟨j, hj⟩⟩

/-- `transform_ad_type_to_pod_3Dview` for a number of cells adds the derivatives. -/
theorem toPodAdd_ok {cols n : Nat} (hn0 : n ≠ 0) (hnl : nl ≠ 0) (hcol : cols ≠ 0)
    (hs : IsSchedule order n) {input : V2 Fad}
    (i0 : input.d0 = n) (i1 : input.d1 = nl) {out : V3 ℝ} (o0 : out.d0 = n) (o1 : out.d1 = nl)
    (o2 : out.d2 = cols) :
    (toPodAdd nl cols n input order out).Sat fun o => (o.d0 = n ∧ o.d1 = nl ∧ o.d2 = cols) ∧
      ∀ c i j, c < n → i < nl → j < cols → o.e c i j = out.e c i j + (input.e c i).dx j := by
  unfold toPodAdd
  rw [if_neg (size_ne hn0 hnl i0 i1), if_neg hn0, if_neg (by
    unfold V3.size
    rw [o0, o1, o2]
    exact Nat.mul_ne_zero (Nat.mul_ne_zero hn0 hnl) hcol)]
  rw [parFor_cells hs (fun c f i j => if i < nl ∧ j < cols then f i j + (input.e c i).dx j else f i j) (by
    intro c z hc z0 z1 z2
    have e := forRange_cell (n := nl) (m := cols) (i := c) (z := z) (body := fun i j out => do
          let a ← vrd2 input c i
          let b ← vrd3 out c i j
          vwr3 out c i j (b + a.dx j)) (fun i j b => b + (input.e c i).dx j) (z.e c) (by
        intro r j f hr hj
        rw [vrd2_ok (by omega) (by omega), Res.ok_bind, vrd3_cell (by omega) (by omega) (by omega), Res.ok_bind,
          vwr3_cell (by omega) (by omega) (by omega)]
        congr 2
        funext r' j'
        by_cases h : r' = r ∧ j' = j
        · rw [if_pos h, if_pos h, h.1, h.2]
        · rw [if_neg h, if_neg h])
    rw [V3.cell_self] at e
    exact e), Res.sat_ok]
  exact ⟨⟨o0, o1, o2⟩, fun c i j hc hi hj => by simp [hc, hi, hj]⟩

end Store

end Plato.J2
