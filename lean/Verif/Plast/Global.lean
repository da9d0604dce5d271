import Verif.Plast.GlobalModel
import Verif.Plast.Loop
import Verif.J2.Function
import Verif.Bnd.Value

/-!
# The function of global unknowns over the domains of a mesh
-/

namespace Plato.Plast
open Finset Plato Plato.Mech Plato.J2
open Plato.Bnd hiding Add

variable {K R : Type}

/-- All numbers of a cell. -/
structure GData (R : Type) where
  loc : CellData R
  n : Nat → R

/-- The numbers of cell `cell` of the mesh, passed through the makers of the worksets. -/
def gData [Zero K] (M : FeModel) (nl : Nat) (mk : GMakers K R) (A : GArgs K) (cell : Nat) : GData R where
  loc := cellData M nl mk.loc A.loc cell
  n l := mk.n l (at0 A.n (cellDof M.npc M.dim M.c2n cell l))

/-- Equal in all entries that exist. -/
structure GData.Same (M : FeModel) (nl : Nat) (D D' : GData R) : Prop where
  loc : D.loc.Same M nl D'.loc
  n : ∀ l, l < M.npc * M.dim → D.n l = D'.n l

/-- Row `c` of the worksets. -/
def GlobalWs.row (w : GlobalWs R) (c : Nat) : GData R := ⟨w.loc.row c, w.node.e c⟩

/-- Extents of the worksets of `n` cells. -/
structure GlobalWs.Ok (M : FeModel) (nl n : Nat) (w : GlobalWs R) : Prop where
  loc : w.loc.Ok M nl n
  n0 : w.node.d0 = n
  n1 : w.node.d1 = M.npc * M.dim

/-- Lengths of the arguments. -/
structure GArgs.Ok (M : FeModel) (nl : Nat) (A : GArgs K) : Prop where
  loc : A.loc.Ok M nl
  n : A.n.length = M.nn * M.dim

/-- Orders of the loops that fill the worksets of each domain and, last, of all cells. -/
def WsSched (M : FeModel) (sch : Nat → Nat → List Nat) : Prop :=
  (∀ k j, k < M.domains.length → j < 7 → IsSchedule (sch k j) (dom M k).length) ∧
    ∀ j, j < 7 → IsSchedule (sch M.domains.length j) M.nc

/-- Orders of the additions to the assembled vector, `w` for each cell. -/
def AddSched (M : FeModel) (w : Nat) (sch : Nat → Nat → List Nat) : Prop :=
  (∀ k, k < M.domains.length → IsSchedule (sch k 7) ((dom M k).length * w)) ∧
    IsSchedule (sch M.domains.length 7) (M.nc * w)

/-- Orders of the loops of the gradients. -/
def GSched (M : FeModel) (sch : Nat → Nat → List Nat) : Prop :=
  ∀ k j, k < M.domains.length → j < 8 → IsSchedule (sch k j) (dom M k).length

/-- The evaluator of domain `k` adds to the result the function `F k` of the numbers of each cell. -/
def RowAdd [AddMonoid R] (M : FeModel) (nl : Nat) (ev : GlobalEv R) (F : Nat → Nat → GData R → Nat → R) : Prop :=
  ∀ k w out (D : Nat → GData R), k < M.domains.length → w.Ok M nl (dom M k).length →
    out.d0 = (dom M k).length → out.d1 = M.npc * M.ndof → (∀ c, c < (dom M k).length → (w.row c).Same M nl (D c)) →
    (ev k w out).Sat fun r => r.d0 = (dom M k).length ∧ r.d1 = M.npc * M.ndof ∧
      ∀ c i, c < (dom M k).length → i < M.npc * M.ndof → r.e c i = out.e c i + F k c (D c) i

theorem globalWs_ok [Zero K] [Zero R] {M : FeModel} (hM : M.Ok) {nl : Nat} {mk : GMakers K R} {A : GArgs K}
    (hA : A.Ok M nl) {cells : List Nat} (hc : ∀ c ∈ cells, c < M.nc)
    {sch : Nat → List Nat} (hs : ∀ j, j < 7 → IsSchedule (sch j) cells.length) :
    (globalWs M nl mk cells sch A).Sat fun w => w.Ok M nl cells.length ∧
      ∀ c, c < cells.length → (w.row c).Same M nl (gData M nl mk A (atN cells c)) := by
  have hd : DomOk (some cells) cells.length M.nc := domOk_of_mem hc
  unfold globalWs
  refine Res.Sat.bind (localWs_ok hM hA.loc hc hd (fun _ _ => rfl) fun j hj => hs j (by omega)) ?_
  rintro w ⟨w1, w2⟩
  refine Res.Sat.bind (workset_ok hM.mesh hd hA.n rfl rfl (hs 6 (by omega))) ?_
  rintro n ⟨n0, n1, n2⟩
  rw [Res.pure_eq, Res.sat_ok]
  exact ⟨⟨w1, n0, n1⟩, fun c hc => ⟨w2 c hc, fun l hl => n2 c l hc hl⟩⟩

theorem globalResults_ok [Zero K] [AddMonoid R] {M : FeModel} (hM : M.Ok) {nl : Nat} {mk : GMakers K R} {A : GArgs K}
    (hA : A.Ok M nl) {ev : GlobalEv R} {F : Nat → Nat → GData R → Nat → R} (hev : RowAdd M nl ev F) {k : Nat}
    (hk : k < M.domains.length) {sch : Nat → List Nat} (hs : ∀ j, j < 7 → IsSchedule (sch j) (dom M k).length) :
    (globalResults M nl mk ev (dom M k) k sch A).Sat fun r => r.d0 = (dom M k).length ∧ r.d1 = M.npc * M.ndof ∧
      ∀ c i, c < (dom M k).length → i < M.npc * M.ndof → r.e c i = F k c (gData M nl mk A (atN (dom M k) c)) i := by
  unfold globalResults
  refine Res.Sat.bind (globalWs_ok hM hA (fun c hc => dom_lt hM hk hc) hs) ?_
  rintro w ⟨h1, h2⟩
  refine (hev k w _ _ hk h1 rfl rfl h2).mono ?_
  rintro r ⟨r0, r1, r2⟩
  exact ⟨r0, r1, fun c i hc hi => by rw [r2 c i hc hi]; exact zero_add _⟩

theorem rd_dom {M : FeModel} {k : Nat} (hk : k < M.domains.length) : rd M.domains k = .ok (dom M k) := by
  unfold dom
  rw [List.getElem?_eq_getElem hk]
  simp [rd, hk]

/-- Row of cell `c` of domain `k` for arguments of the mesh. -/
def rowAt (M : FeModel) (nl : Nat) (F : Nat → Nat → GData ℝ → Nat → ℝ) (A : GArgs ℝ) (k c : Nat) : Nat → ℝ :=
  F k c (gData M nl plainG A (atN (dom M k) c))

section Value
variable {M : FeModel} (hM : M.Ok) {nl : Nat} {ev : GlobalEv ℝ} {F : Nat → Nat → GData ℝ → Nat → ℝ}
  (hev : RowAdd M nl ev F) {A : GArgs ℝ} (hA : A.Ok M nl) {sch : Nat → Nat → List Nat} (hs : WsSched M sch)
  (ha : AddSched M (M.npc * M.ndof) sch)
include hM hev hA hs ha

/-- The value of the function: every entry of every row is added once to its unknown, and so are those of the
boundary. -/
theorem value_ok {bnd : V3 ℝ → V2 ℝ → Res (V2 ℝ)} {row : Nat → Nat → ℝ}
    (hbnd : ∀ g : V3 ℝ, g.d0 = M.nc → g.d1 = M.npc → g.d2 = M.dim →
      (∀ c a k, c < M.nc → a < M.npc → k < M.dim → g.e c a k = M.cellX A.loc.x c a k) →
      (bnd g ⟨M.nc, M.npc * M.ndof, fun _ _ => 0⟩).Sat fun (r : V2 ℝ) => r.d0 = M.nc ∧ r.d1 = M.npc * M.ndof ∧
        ∀ q, scatteredVec M.npc M.ndof M.c2n none M.nc r.e q = scatteredVec M.npc M.ndof M.c2n none M.nc row q) :
    (globalValue M nl ev bnd sch A).Sat fun v => v.length = M.nn * M.ndof ∧
      ∀ q, at0 v q = (∑ k ∈ range M.domains.length, scatteredVec M.npc M.ndof M.c2n (some (dom M k)) (dom M k).length
        (rowAt M nl F A k) q) + scatteredVec M.npc M.ndof M.c2n none M.nc row q := by
  unfold globalValue overCells
  refine Res.Sat.bind (forRange_inv (fun j v => v.length = M.nn * M.ndof ∧ ∀ q, at0 v q = ∑ k ∈ range j,
    scatteredVec M.npc M.ndof M.c2n (some (dom M k)) (dom M k).length (rowAt M nl F A k) q) (Nat.zero_le _)
    ⟨by rw [List.length_replicate, Nat.mul_comm], fun q => ?_⟩ ?_) ?_
  · simp only [range_zero, sum_empty, at0, List.getElem?_replicate]
    split_ifs <;> rfl
  · rintro k v - hk ⟨v0, v1⟩
    rw [rd_dom hk, Res.ok_bind]
    refine Res.Sat.bind (globalResults_ok hM hA hev hk fun j hj => hs.1 k j hk hj) ?_
    rintro r ⟨r0, r1, r2⟩
    refine (C08_assembleResidual (ws := V2.view2 r) hM.mesh (domOk_of_mem fun c hc => dom_lt hM hk hc) v0 r0.ge r1.ge
      (ha.1 k hk)).mono ?_
    rintro v' ⟨hl, hq⟩
    refine ⟨hl, fun q => ?_⟩
    rw [hq q, v1 q, sum_range_succ]
    congr 1
    exact scatteredVec_congr (fun c l hc hl => r2 c l hc hl) q
  · rintro v ⟨v0, v1⟩
    have hlen : (List.range M.nc).length = M.nc := List.length_range
    have hws := globalWs_ok (mk := plainG) hM hA (cells := List.range M.nc) (fun c hc => List.mem_range.1 hc)
      (sch := sch M.domains.length) fun j hj => by rw [hlen]; exact hs.2 j hj
    refine Res.Sat.bind hws ?_
    rintro w ⟨w1, w2⟩
    rw [hlen] at w1 w2
    refine Res.Sat.bind (hbnd w.loc.config w1.loc.x0 w1.loc.x1 w1.loc.x2 fun c a k hc ha hk => ?_) ?_
    · have h := (w2 c hc).loc.x a k ha hk
      rw [← gcell_range hc] at h
      exact h
    · rintro r ⟨r0, r1, r2⟩
      refine (C08_assembleResidual (ws := V2.view2 r) hM.mesh (dom := none) ⟨fun c hc => hc, fun l hl => by cases hl⟩ v0
        r0.ge r1.ge ha.2).mono ?_
      rintro v' ⟨hl, hq⟩
      refine ⟨hl, fun q => ?_⟩
      rw [hq q, v1 q]
      congr 1
      exact r2 q

/-- Work of the value on a virtual field. -/
theorem value_work {bnd : V3 ℝ → V2 ℝ → Res (V2 ℝ)} {row : Nat → Nat → ℝ}
    (hbnd : ∀ g : V3 ℝ, g.d0 = M.nc → g.d1 = M.npc → g.d2 = M.dim →
      (∀ c a k, c < M.nc → a < M.npc → k < M.dim → g.e c a k = M.cellX A.loc.x c a k) →
      (bnd g ⟨M.nc, M.npc * M.ndof, fun _ _ => 0⟩).Sat fun (r : V2 ℝ) => r.d0 = M.nc ∧ r.d1 = M.npc * M.ndof ∧
        ∀ q, scatteredVec M.npc M.ndof M.c2n none M.nc r.e q = scatteredVec M.npc M.ndof M.c2n none M.nc row q) :
    (globalValue M nl ev bnd sch A).Sat fun v => v.length = M.nn * M.ndof ∧ ∀ w : Nat → ℝ,
      ∑ q ∈ range (M.nn * M.ndof), at0 v q * w q = (∑ k ∈ range M.domains.length, ∑ c ∈ range (dom M k).length,
        ∑ l ∈ range (M.npc * M.ndof), rowAt M nl F A k c l * w (cellDof M.npc M.ndof M.c2n (atN (dom M k) c) l)) +
        ∑ q ∈ range (M.nn * M.ndof), scatteredVec M.npc M.ndof M.c2n none M.nc row q * w q := by
  refine (value_ok hM hev hA hs ha hbnd).mono ?_
  rintro v ⟨hl, hq⟩
  refine ⟨hl, fun w => ?_⟩
  simp only [hq, add_mul, sum_add_distrib, sum_mul]
  congr 1
  rw [sum_comm]
  refine sum_congr rfl fun k hk => ?_
  rw [scatteredVec_pairing hM.mesh (domOk_of_mem fun c hc => dom_lt hM (mem_range.1 hk) hc)]
  rfl

end Value

/-- The matrices of the cells: derivatives of the rows of the cells of each domain, zero for a cell of none. -/
theorem gradient_ok {M : FeModel} (hM : M.Ok) (hB : Blocks M) {nl : Nat} {sch : Nat → Nat → List Nat}
    (hs : GSched M sch) {cols : Nat} (hcol : cols ≠ 0) {mk : GMakers ℝ Fad} {ev : GlobalEv Fad}
    {F : Nat → Nat → GData Fad → Nat → Fad} (hev : RowAdd M nl ev F) {A : GArgs ℝ} (hA : A.Ok M nl) :
    (globalGradient M nl cols mk ev sch A).Sat fun J => (J.d0 = M.nc ∧ J.d1 = M.npc * M.ndof ∧ J.d2 = cols) ∧
      (∀ k, k < M.domains.length → ∀ c, c < (dom M k).length → ∀ i j, i < M.npc * M.ndof → j < cols →
        J.e (atN (dom M k) c) i j = (F k c (gData M nl mk A (atN (dom M k) c)) i).dx j) ∧
      ∀ cell, cell < M.nc → (∀ k, k < M.domains.length → cell ∉ dom M k) → ∀ i j, i < M.npc * M.ndof → j < cols →
        J.e cell i j = 0 := by
  have hnl : M.npc * M.ndof ≠ 0 := Nat.mul_ne_zero (Nat.succ_ne_zero _) hM.ndof.ne'
  unfold globalGradient
  refine (overCells_store (α := Fin (M.npc * M.ndof) → Fin cols → ℝ) hM hB
    (fun J : V3 ℝ => J.d0 = M.nc ∧ J.d1 = M.npc * M.ndof ∧ J.d2 = cols)
    (fun J cell i j => J.e cell i j)
    (fun k cell i j => (F k ((dom M k).idxOf cell) (gData M nl mk A cell) i).dx j)
    ⟨rfl, rfl, rfl⟩ ?_).mono ?_
  · rintro k J hk ⟨v0, v1, v2⟩ -
    have hlt : ∀ c ∈ dom M k, c < M.nc := fun c hc => dom_lt hM hk hc
    refine Res.Sat.bind (globalResults_ok hM hA hev hk fun j hj => hs k j hk (by omega)) ?_
    rintro r ⟨r0, r1, r2⟩
    refine (toPod_ok (hB.nonempty k hk) hnl hcol (hB.nodup k hk) hlt (hs k 7 hk (by omega)) r0 r1 v0 v1 v2).mono ?_
    rintro o ⟨o0, o1, o2⟩
    refine ⟨o0, fun cell hcell => funext fun i => funext fun j => ?_,
      fun cell h1 h2 => funext fun i => funext fun j => o2 cell h1 h2 i j i.2 j.2⟩
    obtain ⟨b, hb, rfl⟩ := mem_atN hcell
    have hi : (dom M k).idxOf (atN (dom M k) b) = b := by
      rw [show atN (dom M k) b = (dom M k)[b]'hb from at0_eq hb]
      exact (hB.nodup k hk).idxOf_getElem _ hb
    rw [o1 b hb i j i.2 j.2, r2 b i hb i.2, hi]
  · rintro J ⟨h1, h2, h3⟩
    refine ⟨h1, fun k hk c hc i j hi hj => ?_,
      fun cell hc hn i j hi hj => congrFun (congrFun (h3 cell hc hn) ⟨i, hi⟩) ⟨j, hj⟩⟩
    have := congrFun (congrFun (h2 k hk _ (atN_mem hc)) ⟨i, hi⟩) ⟨j, hj⟩
    have hx : (dom M k).idxOf (atN (dom M k) c) = c := by
      rw [show atN (dom M k) c = (dom M k)[c]'hc from at0_eq hc]
      exact (hB.nodup k hk).idxOf_getElem _ hc
    simp only [hx] at this
    exact this

end Plato.Plast
