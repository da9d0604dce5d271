import Verif.Expr.Model
import Mathlib.Data.List.Nodup
import Mathlib.Data.Finset.Card
import Mathlib.Tactic.Set

/-!
# The nodes form a tree with a distinguished right spine

`TreeAt` and `ZAt` relate the pointer structure of `Verif.Expr.Model` to inductive trees.  The node
`current` always lies on the right spine below the local `root`; a state is therefore a list of
frames (from `current` up to, not including, `root`) and the subtree at `current->right`.  The main
result, `insert_refines`, says that `insert_node_item` acts on this representation as `zinsert`,
without touching freed or null nodes and without leaking.
-/

namespace Plato.Ee

variable {K : Type}

/-- Trees as values. -/
inductive Tree (K : Type) where
  | nil
  | node (it : Item K) (l r : Tree K)

/-- One node of the right spine: the item and its left subtree. -/
structure Frame (K : Type) where
  it : Item K
  left : Tree K

/-- `p` points to the tree `t`, whose top has the given parent; `fp` are the addresses used. -/
def TreeAt (h : Nat → Option (Cell K)) : Tree K → Option Nat → Option Nat → List Nat → Prop
  | .nil, p, _, fp => p = none ∧ fp = []
  | .node it l r, p, par, fp => ∃ a lp rp fl fr, p = some a ∧ h a = some ⟨it, lp, rp, par⟩ ∧
      TreeAt h l lp (some a) fl ∧ TreeAt h r rp (some a) fr ∧ fp = a :: (fl ++ fr)

/-- The payload of the local `root`. -/
def rootItem : Item K := ⟨.empty, 0, none, []⟩

/-- The frames `fs` are the nodes from `cur` up to `root`; `rp` is `cur->right`. -/
def SpineAt (h : Nat → Option (Cell K)) (root : Nat) :
    List (Frame K) → Nat → Option Nat → List Nat → Prop
  | [], cur, rp, fp => cur = root ∧ h root = some ⟨rootItem, none, rp, none⟩ ∧ fp = [root]
  | f :: fs, cur, rp, fp => ∃ par lp fl fp', h cur = some ⟨f.it, lp, rp, some par⟩ ∧
      TreeAt h f.left lp (some cur) fl ∧ SpineAt h root fs par (some cur) fp' ∧
      fp = cur :: (fl ++ fp')

/-- The store holds exactly the spine `fs` from `cur` and the subtree `t` at `cur->right`. -/
structure ZAt (m : Mem K) (root : Nat) (fs : List (Frame K)) (t : Tree K) (cur : Nat) : Prop where
  bound : ∀ a, m.cell a ≠ none → a < m.next
  rep : ∃ rp ft fp, SpineAt m.cell root fs cur rp fp ∧ TreeAt m.cell t rp (some cur) ft ∧
    (ft ++ fp).Nodup ∧ ∀ a, m.cell a ≠ none ↔ a ∈ ft ++ fp

theorem TreeAt.congr {h h' : Nat → Option (Cell K)} :
    ∀ {t : Tree K} {p par fp}, TreeAt h t p par fp → (∀ a ∈ fp, h' a = h a) →
      TreeAt h' t p par fp
  | .nil, _, _, _, ht, _ => ht
  | .node it l r, p, par, fp, ⟨a, lp, rp, fl, fr, hp, ha, hl, hr, hfp⟩, hc => by
    subst hfp
    refine ⟨a, lp, rp, fl, fr, hp, ?_, ?_, ?_, rfl⟩
    · rw [hc a (by simp)]; exact ha
    · exact hl.congr fun x hx => hc x (by simp [hx])
    · exact hr.congr fun x hx => hc x (by simp [hx])

theorem SpineAt.congr {h h' : Nat → Option (Cell K)} {root : Nat} :
    ∀ {fs : List (Frame K)} {cur rp fp}, SpineAt h root fs cur rp fp → (∀ a ∈ fp, h' a = h a) →
      SpineAt h' root fs cur rp fp
  | [], cur, rp, fp, ⟨h1, h2, h3⟩, hc => by
    subst h3
    exact ⟨h1, by rw [hc root (by simp)]; exact h2, rfl⟩
  | f :: fs, cur, rp, fp, ⟨par, lp, fl, fp', h1, h2, h3, h4⟩, hc => by
    subst h4
    refine ⟨par, lp, fl, fp', ?_, ?_, ?_, rfl⟩
    · rw [hc cur (by simp)]; exact h1
    · exact h2.congr fun x hx => hc x (by simp [hx])
    · exact h3.congr fun x hx => hc x (by simp [hx])

theorem SpineAt.mem_cur {h : Nat → Option (Cell K)} {root : Nat} {fs : List (Frame K)} {cur rp fp}
    (hs : SpineAt h root fs cur rp fp) : cur ∈ fp := by
  cases fs with
  | nil => obtain ⟨h1, _, h3⟩ := hs; simp [h1, h3]
  | cons f fs => obtain ⟨_, _, _, _, _, _, _, h4⟩ := hs; simp [h4]

theorem SpineAt.root_mem {h : Nat → Option (Cell K)} {root : Nat} :
    ∀ {fs : List (Frame K)} {cur rp fp}, SpineAt h root fs cur rp fp → root ∈ fp
  | [], _, _, _, ⟨_, _, h3⟩ => by simp [h3]
  | _ :: _, _, _, _, ⟨_, _, _, _, _, _, h3, h4⟩ => by
    have := h3.root_mem; simp [h4, this]

theorem SpineAt.ld {h : Nat → Option (Cell K)} {root : Nat} {fs : List (Frame K)} {cur rp fp}
    (hs : SpineAt h root fs cur rp fp) : ∃ c, h cur = some c ∧ c.right = rp := by
  cases fs with
  | nil => obtain ⟨h1, h2, _⟩ := hs; subst h1; exact ⟨_, h2, rfl⟩
  | cons f fs => obtain ⟨_, _, _, _, h1, _⟩ := hs; exact ⟨_, h1, rfl⟩

/-- Redirecting `cur->right`. -/
theorem SpineAt.setRight {h : Nat → Option (Cell K)} {root : Nat} {fs : List (Frame K)}
    {cur rp fp} (hs : SpineAt h root fs cur rp fp) (hn : fp.Nodup) {c : Cell K}
    (hc : h cur = some c) (q : Option Nat) :
    SpineAt (fun x => if x = cur then some { c with right := q } else h x) root fs cur q fp := by
  cases fs with
  | nil =>
    obtain ⟨h1, h2, h3⟩ := hs
    subst h1
    rw [hc] at h2
    cases h2
    exact ⟨rfl, by simp, h3⟩
  | cons f fs =>
    obtain ⟨par, lp, fl, fp', h1, h2, h3, h4⟩ := hs
    rw [hc] at h1
    cases h1
    subst h4
    have hn' := List.nodup_cons.mp hn
    refine ⟨par, lp, fl, fp', by simp, h2.congr ?_, h3.congr ?_, rfl⟩
    · intro a ha
      have : a ≠ cur := fun e => hn'.1 (by simp [← e, ha])
      simp [this]
    · intro a ha
      have : a ≠ cur := fun e => hn'.1 (by simp [← e, ha])
      simp [this]

/-- Redirecting the parent of the top of a tree. -/
theorem TreeAt.setParent {h : Nat → Option (Cell K)} {t : Tree K} {a par fp}
    (ht : TreeAt h t (some a) par fp) (hn : fp.Nodup) {c : Cell K} (hc : h a = some c)
    (q : Option Nat) :
    TreeAt (fun x => if x = a then some { c with parent := q } else h x) t (some a) q fp := by
  cases t with
  | nil => obtain ⟨h1, _⟩ := ht; simp at h1
  | node it l r =>
    obtain ⟨b, lp, rp, fl, fr, hp, hb, hl, hr, hfp⟩ := ht
    cases hp
    rw [hc] at hb
    cases hb
    subst hfp
    have hn' := List.nodup_cons.mp hn
    refine ⟨a, lp, rp, fl, fr, rfl, by simp, hl.congr ?_, hr.congr ?_, rfl⟩
    · intro x hx
      have : x ≠ a := fun e => hn'.1 (by simp [← e, hx])
      simp [this]
    · intro x hx
      have : x ≠ a := fun e => hn'.1 (by simp [← e, hx])
      simp [this]

theorem TreeAt.mem_top {h : Nat → Option (Cell K)} {t : Tree K} {a par fp}
    (ht : TreeAt h t (some a) par fp) : a ∈ fp ∧ ∃ c, h a = some c := by
  cases t with
  | nil => obtain ⟨h1, _⟩ := ht; simp at h1
  | node it l r =>
    obtain ⟨b, lp, rp, fl, fr, hp, hb, hl, hr, hfp⟩ := ht
    cases hp
    exact ⟨by simp [hfp], _, hb⟩

theorem Mem.ld_some {m : Mem K} {a : Nat} {c : Cell K} (h : m.cell a = some c) : m.ld a = .ok c := by
  simp [Mem.ld, h]

/-! ### Climbing -/

/-- Climbing in the representation. -/
def zclimb (pass : Nat → Bool) : List (Frame K) → Tree K → List (Frame K) × Tree K
  | [], t => ([], t)
  | f :: fs, t => if pass f.it.prec then zclimb pass fs (.node f.it f.left t) else (f :: fs, t)

theorem ZAt.up {m : Mem K} {root : Nat} {f : Frame K} {fs : List (Frame K)} {t : Tree K} {cur : Nat}
    (h : ZAt m root (f :: fs) t cur) : ∃ c par, m.cell cur = some c ∧ c.item = f.it ∧
      c.parent = some par ∧ ZAt m root fs (.node f.it f.left t) par := by
  obtain ⟨hb, rp, ft, fp, ⟨par, lp, fl, fp', h1, h2, h3, h4⟩, ht, hn, hlive⟩ := h
  subst h4
  have hperm : (ft ++ cur :: (fl ++ fp')).Perm ((cur :: (fl ++ ft)) ++ fp') := by
    calc (ft ++ cur :: (fl ++ fp')).Perm (cur :: (ft ++ (fl ++ fp'))) := List.perm_middle
      _ |>.Perm (cur :: ((fl ++ ft) ++ fp')) := by
        refine List.Perm.cons _ ?_
        rw [← List.append_assoc]
        exact List.perm_append_comm.append_right fp'
  refine ⟨_, par, h1, rfl, rfl, hb, some cur, cur :: (fl ++ ft), fp', h3,
    ⟨cur, lp, rp, fl, ft, rfl, h1, h2, ht, rfl⟩, hperm.nodup_iff.mp hn, fun a => ?_⟩
  rw [hlive a]
  exact hperm.mem_iff

theorem ZAt.top {m : Mem K} {root : Nat} {t : Tree K} {cur : Nat}
    (h : ZAt m root [] t cur) : cur = root ∧ ∃ c, m.cell cur = some c ∧ c.item = rootItem ∧
      c.parent = none := by
  obtain ⟨hb, rp, ft, fp, ⟨h1, h2, h3⟩, _⟩ := h
  subst h1
  exact ⟨rfl, _, h2, rfl, rfl⟩

theorem climb_refines {m : Mem K} {root : Nat} (pass : Nat → Bool) (h0 : pass 0 = false) :
    ∀ {fs : List (Frame K)} {t : Tree K} {cur : Nat} (n : Nat), ZAt m root fs t cur →
      fs.length < n → ∃ cur', climb m pass n (some cur) = .ok (some cur') ∧
        ZAt m root (zclimb pass fs t).1 (zclimb pass fs t).2 cur'
  | [], t, cur, n, hz, hn => by
    obtain ⟨n, rfl⟩ : ∃ k, n = k + 1 := ⟨n - 1, by simp at hn; omega⟩
    obtain ⟨_, c, hc, hi, _⟩ := hz.top
    refine ⟨cur, ?_, by simpa [zclimb] using hz⟩
    simp [climb, Mem.ld_some hc, hi, rootItem, h0]
  | f :: fs, t, cur, n, hz, hn => by
    obtain ⟨n, rfl⟩ : ∃ k, n = k + 1 := ⟨n - 1, by simp at hn; omega⟩
    obtain ⟨c, par, hc, hi, hp, hz'⟩ := hz.up
    by_cases hpass : pass f.it.prec = true
    · obtain ⟨cur', h1, h2⟩ := climb_refines pass h0 n hz' (by simp at hn; omega)
      refine ⟨cur', ?_, by simpa [zclimb, hpass] using h2⟩
      simp [climb, Mem.ld_some hc, hi, hpass, hp, h1]
    · refine ⟨cur, ?_, by simpa [zclimb, hpass] using hz⟩
      simp [climb, Mem.ld_some hc, hi, hpass]

/-! ### Sizes, so that the fuel suffices -/

theorem nodup_bound {l : List Nat} {n : Nat} (hn : l.Nodup) (hb : ∀ a ∈ l, a < n) :
    l.length ≤ n := by
  have h : l.toFinset ⊆ Finset.range n := fun a ha => by
    simp only [List.mem_toFinset] at ha; simpa using hb a ha
  have := Finset.card_le_card h
  rwa [List.toFinset_card_of_nodup hn, Finset.card_range] at this

theorem SpineAt.length_le {h : Nat → Option (Cell K)} {root : Nat} :
    ∀ {fs : List (Frame K)} {cur rp fp}, SpineAt h root fs cur rp fp → fs.length < fp.length
  | [], _, _, _, ⟨_, _, h3⟩ => by simp [h3]
  | _ :: fs, _, _, _, ⟨_, _, fl, fp', _, _, h3, h4⟩ => by
    have := h3.length_le; simp [h4]; omega

/-- Nesting depth of a tree. -/
def Tree.depth : Tree K → Nat
  | .nil => 0
  | .node _ l r => max l.depth r.depth + 1

theorem TreeAt.depth_le {h : Nat → Option (Cell K)} :
    ∀ {t : Tree K} {p par fp}, TreeAt h t p par fp → t.depth ≤ fp.length
  | .nil, _, _, _, ⟨_, h2⟩ => by simp [Tree.depth, h2]
  | .node it l r, _, _, _, ⟨a, lp, rp, fl, fr, hp, hb, hl, hr, hfp⟩ => by
    have h1 := hl.depth_le
    have h2 := hr.depth_le
    simp only [Tree.depth, hfp, List.length_cons, List.length_append]
    omega

theorem ZAt.fs_lt {m : Mem K} {root : Nat} {fs : List (Frame K)} {t : Tree K} {cur : Nat}
    (h : ZAt m root fs t cur) : fs.length < m.next + 1 := by
  obtain ⟨hb, rp, ft, fp, hs, ht, hn, hlive⟩ := h
  have h1 := hs.length_le
  have h2 := nodup_bound hn fun a ha => hb a ((hlive a).mpr ha)
  simp at h2
  omega

/-! ### Insertion -/

/-- `insert_node_item` in the representation. -/
def zinsert (fs : List (Frame K)) (t : Tree K) (item : Item K) (info : NodeInfo) :
    Option (List (Frame K) × Tree K) :=
  match zclimb (passes info item.prec) fs t with
  | (fs, t) =>
    if item.id = .closeP then
      match fs with
      | [] => none
      | _ :: fs' => some (fs', t)
    else if item.id = .closeBar then
      match fs with
      | [] => none
      | f :: fs' => some (fs', .node { f.it with id := .abs } f.left t)
    else some (⟨item, t⟩ :: fs, .nil)

theorem reparent_refines {m : Mem K} {t : Tree K} {rp par ft} (ht : TreeAt m.cell t rp par ft)
    (hn : ft.Nodup) (q : Option Nat) : ∃ m', m.reparent rp q = .ok m' ∧ m'.next = m.next ∧
      TreeAt m'.cell t rp q ft ∧ (∀ a, a ∉ ft → m'.cell a = m.cell a) ∧
      (∀ a, m'.cell a ≠ none ↔ m.cell a ≠ none) := by
  cases rp with
  | none =>
    refine ⟨m, rfl, rfl, ?_, fun _ _ => rfl, fun _ => Iff.rfl⟩
    cases t with
    | nil => exact ht
    | node it l r => obtain ⟨_, _, _, _, _, hp, _⟩ := ht; simp at hp
  | some a =>
    obtain ⟨hmem, c, hc⟩ := ht.mem_top
    refine ⟨m.upd a (some { c with parent := q }), ?_, rfl, ht.setParent hn hc q, ?_, ?_⟩
    · simp [Mem.reparent, Mem.setParent, Mem.ld_some hc]
    · intro x hx
      have : x ≠ a := fun e => hx (e ▸ hmem)
      simp [Mem.upd, this]
    · intro x
      by_cases hx : x = a
      · subst hx; simp [Mem.upd, hc]
      · simp [Mem.upd, hx]

theorem insert_refines {m : Mem K} {root : Nat} {fs fs' : List (Frame K)} {t t' : Tree K} {cur : Nat}
    {item : Item K} {info : NodeInfo} (hz : ZAt m root fs t cur) (hinfo : info ≠ .noInfo)
    (h0 : passes info item.prec 0 = false)
    (hins : zinsert fs t item info = some (fs', t'))
    (hleft : item.id = .closeP → ∀ f ∈ (zclimb (passes info item.prec) fs t).1.head?,
      f.left = .nil) :
    ∃ m' cur', insertNodeItem m (some cur) item info = .ok (m', some cur') ∧
      ZAt m' root fs' t' cur' := by
  obtain ⟨cur1, hcl, hz1⟩ := climb_refines (passes info item.prec) h0 (m.next + 1) hz hz.fs_lt
  simp only [zinsert] at hins
  generalize hZ : zclimb (passes info item.prec) fs t = Z at hins hz1 hleft
  obtain ⟨gs, u⟩ := Z
  simp only at hins hz1 hleft
  obtain ⟨hb, rp, ft, fp, hs, ht, hn, hlive⟩ := hz1
  obtain ⟨c, hc, hcr⟩ := hs.ld
  have hnd := List.nodup_append.mp hn
  simp only [insertNodeItem, if_neg hinfo, hcl, Res.ok_bind, Mem.ld_some hc]
  by_cases hcp : item.id = .closeP
  · simp only [hcp, if_true] at hins ⊢
    cases gs with
    | nil => simp at hins
    | cons f gs =>
      simp only [Option.some.injEq, Prod.mk.injEq] at hins
      obtain ⟨rfl, rfl⟩ := hins
      have hfl : f.left = .nil := hleft hcp f (by simp)
      obtain ⟨par, lp, fl, fp', h1, h2, h3, h4⟩ := hs
      rw [hc] at h1
      cases h1
      rw [hfl] at h2
      obtain ⟨rfl, rfl⟩ := h2
      subst h4
      simp only [List.nil_append] at hn hlive hnd
      have hnd2 := List.nodup_cons.mp hnd.2.1
      -- set right of the parent
      obtain ⟨cp, hcp1, -⟩ := h3.ld
      have hparcur : par ≠ cur1 := fun e => hnd2.1 (e ▸ h3.mem_cur)
      have hs1 := h3.setRight hnd2.2 hcp1 rp
      have hparft : par ∉ ft := fun hx => hnd.2.2 par hx par (by simp [h3.mem_cur]) rfl
      have hcurft : cur1 ∉ ft := fun hx => hnd.2.2 cur1 hx cur1 (by simp) rfl
      have ht1 : TreeAt (m.upd par (some { cp with right := rp })).cell u rp (some cur1) ft :=
        ht.congr fun a ha => by
          have : a ≠ par := fun e => hparft (e ▸ ha)
          simp [Mem.upd, this]
      obtain ⟨m2, hm2, hnext2, ht2, hfr2, hlive2⟩ := reparent_refines ht1 hnd.1 (some par)
      have hcur2 : m2.cell cur1 = some ⟨f.it, none, rp, some par⟩ := by
        rw [hfr2 cur1 hcurft]; simp [Mem.upd, hparcur.symm, hc]
      refine ⟨m2.upd cur1 none, par, ?_, ?_, ?_⟩
      · simp [Mem.setRight, Mem.ld_some hcp1, hm2, Mem.free, Mem.ld_some hcur2]
      · intro a ha
        simp only [Mem.upd] at ha ⊢
        rw [hnext2]
        by_cases hac : a = cur1
        · simp [hac] at ha
        · simp only [hac, if_false] at ha
          have := (hlive2 a).mp ha
          apply hb
          simp only [Mem.upd] at this
          by_cases hap : a = par
          · subst hap; rw [hcp1]; simp
          · simpa [hap] using this
      · refine ⟨rp, ft, fp', ?_, ?_, ?_, ?_⟩
        · refine hs1.congr fun a ha => ?_
          have ha1 : a ≠ cur1 := fun e => hnd2.1 (e ▸ ha)
          have ha2 : a ∉ ft := fun hx => hnd.2.2 a hx a (by simp [ha]) rfl
          simp only [Mem.upd, ha1, if_false]
          rw [hfr2 a ha2]
          simp [Mem.upd]
        · refine ht2.congr fun a ha => ?_
          have ha1 : a ≠ cur1 := fun e => hcurft (e ▸ ha)
          simp [Mem.upd, ha1]
        · exact List.nodup_append.mpr ⟨hnd.1, hnd2.2, fun a ha b hb' =>
            hnd.2.2 a ha b (by simp [hb'])⟩
        · intro a
          by_cases hac : a = cur1
          · subst hac
            simp [Mem.upd, hcurft, hnd2.1]
          · simp only [Mem.upd, hac, if_false]
            rw [hlive2 a]
            have hla := hlive a
            simp only [List.mem_append, List.mem_cons, hac, false_or] at hla
            rw [List.mem_append, ← hla]
            by_cases hap : a = par
            · subst hap; simp [Mem.upd, hcp1]
            · simp [Mem.upd, hap]
  · simp only [hcp, if_false] at hins ⊢
    by_cases hcb : item.id = .closeBar
    · simp only [hcb, if_true] at hins ⊢
      cases gs with
      | nil => simp at hins
      | cons f gs =>
        simp only [Option.some.injEq, Prod.mk.injEq] at hins
        obtain ⟨rfl, rfl⟩ := hins
        obtain ⟨par, lp, fl, fp', h1, h2, h3, h4⟩ := hs
        rw [hc] at h1
        cases h1
        subst h4
        have hnd2 := List.nodup_cons.mp hnd.2.1
        have hcurft : cur1 ∉ ft := fun hx => hnd.2.2 cur1 hx cur1 (by simp) rfl
        have hperm : (ft ++ cur1 :: (fl ++ fp')).Perm ((cur1 :: (fl ++ ft)) ++ fp') := by
          calc (ft ++ cur1 :: (fl ++ fp')).Perm (cur1 :: (ft ++ (fl ++ fp'))) := List.perm_middle
            _ |>.Perm (cur1 :: ((fl ++ ft) ++ fp')) := by
              refine List.Perm.cons _ ?_
              rw [← List.append_assoc]
              exact List.perm_append_comm.append_right fp'
        have hoff : ∀ a, a ≠ cur1 → (m.upd cur1 (some ⟨{ f.it with id := .abs }, lp, rp,
            some par⟩)).cell a = m.cell a := fun a ha => by simp [Mem.upd, ha]
        refine ⟨m.upd cur1 (some ⟨{ f.it with id := .abs }, lp, rp, some par⟩), par, ?_, ?_, ?_⟩
        · simp [Mem.setId, Mem.ld_some hc]
        · intro a ha
          by_cases hac : a = cur1
          · subst hac; exact hb a (by simp [hc])
          · rw [hoff a hac] at ha; exact hb a ha
        · refine ⟨some cur1, cur1 :: (fl ++ ft), fp', h3.congr fun a ha => hoff a ?_,
            ⟨cur1, lp, rp, fl, ft, rfl, by simp [Mem.upd], h2.congr fun a ha => hoff a ?_,
              ht.congr fun a ha => hoff a ?_, rfl⟩, hperm.nodup_iff.mp hn, fun a => ?_⟩
          · exact fun e => hnd2.1 (by simp [← e, ha])
          · exact fun e => hnd2.1 (by simp [← e, ha])
          · exact fun e => hcurft (e ▸ ha)
          · rw [← hperm.mem_iff, ← hlive a]
            by_cases hac : a = cur1
            · subst hac; simp [Mem.upd, hc]
            · rw [hoff a hac]
    · simp only [hcb, if_false, Option.some.injEq, Prod.mk.injEq] at hins ⊢
      obtain ⟨rfl, rfl⟩ := hins
      have hfresh : m.cell m.next = none := by
        by_contra hne
        exact absurd (hb _ hne) (lt_irrefl _)
      have hnfp : m.next ∉ ft ++ fp := fun hx => (hlive _).mpr hx hfresh
      have hnft : m.next ∉ ft := fun hx => hnfp (by simp [hx])
      have hnfp' : m.next ∉ fp := fun hx => hnfp (by simp [hx])
      have hcurft : cur1 ∉ ft := fun hx => hnd.2.2 cur1 hx cur1 hs.mem_cur rfl
      have hcurn : cur1 ≠ m.next := fun e => hnfp' (e ▸ hs.mem_cur)
      set m1 : Mem K := ⟨fun x => if x = m.next then some ⟨item, rp, none, none⟩ else m.cell x,
        m.next + 1⟩ with hm1
      have hoff1 : ∀ a, a ≠ m.next → m1.cell a = m.cell a := fun a ha => by simp [hm1, ha]
      have ht1 : TreeAt m1.cell u rp (some cur1) ft := ht.congr fun a ha =>
        hoff1 a fun e => hnft (e ▸ ha)
      obtain ⟨m2, hm2, hnext2, ht2, hfr2, hlive2⟩ := reparent_refines ht1 hnd.1 (some m.next)
      have hc2 : m2.cell cur1 = some c := by rw [hfr2 _ hcurft, hoff1 _ hcurn, hc]
      have hn2 : m2.cell m.next = some ⟨item, rp, none, none⟩ := by
        rw [hfr2 _ hnft]; simp [hm1]
      have hs2 : SpineAt m2.cell root gs cur1 rp fp := hs.congr fun a ha => by
        rw [hfr2 a (fun hx => hnd.2.2 a hx a ha rfl), hoff1 a (fun e => hnfp' (e ▸ ha))]
      have hs3 := hs2.setRight hnd.2.1 hc2 (some m.next)
      set m3 := m2.upd cur1 (some { c with right := some m.next }) with hm3
      have hn3 : m3.cell m.next = some ⟨item, rp, none, none⟩ := by
        simp [hm3, Mem.upd, hcurn.symm, hn2]
      set m4 := m3.upd m.next (some ⟨item, rp, none, some cur1⟩) with hm4
      have hoff4 : ∀ a, a ≠ m.next → m4.cell a = m3.cell a := fun a ha => by simp [hm4, Mem.upd, ha]
      have hoff3 : ∀ a, a ≠ cur1 → m3.cell a = m2.cell a := fun a ha => by simp [hm3, Mem.upd, ha]
      refine ⟨m4, m.next, ?_, ?_, ?_⟩
      · simp only [Mem.alloc]
        rw [hcr, ← hm1, hm2]
        simp only [Res.ok_bind, Mem.setRight, Mem.ld_some hc2, Res.pure_eq]
        rw [← hm3]
        simp only [Mem.setParent, Mem.ld_some hn3, Res.ok_bind, Res.pure_eq]
        rw [← hm4]
      · intro a ha
        have hnx : m4.next = m.next + 1 := by
          simp [hm4, hm3, Mem.upd, hnext2, hm1]
        rw [hnx]
        by_cases han : a = m.next
        · omega
        · rw [hoff4 a han] at ha
          by_cases hac : a = cur1
          · subst hac; have := hb a (by simp [hc]); omega
          · rw [hoff3 a hac, hlive2, hoff1 a han] at ha
            have := hb a ha; omega
      · refine ⟨none, [], m.next :: (ft ++ fp), ⟨cur1, rp, ft, fp, ?_, ?_, ?_, rfl⟩, ⟨rfl, rfl⟩, ?_,
          ?_⟩
        · simp [hm4, Mem.upd]
        · exact ht2.congr fun a ha => by
            rw [hoff4 a (fun e => hnft (e ▸ ha)), hoff3 a (fun e => hcurft (e ▸ ha))]
        · exact hs3.congr fun a ha => by
            rw [hoff4 a (fun e => hnfp' (e ▸ ha))]; rfl
        · simpa using ⟨by simpa using hnfp, hn⟩
        · intro a
          simp only [List.nil_append, List.mem_cons]
          by_cases han : a = m.next
          · subst han; simp [hm4, Mem.upd]
          · rw [hoff4 a han]
            simp only [han, false_or]
            rw [← hlive a]
            by_cases hac : a = cur1
            · subst hac; simp [hm3, Mem.upd, hc]
            · rw [hoff3 a hac, hlive2, hoff1 a han]

end Plato.Ee
