import Verif.Mech.VectorModel
import Verif.Fem.Residual
import Verif.Fem.AssemblyProps
import Verif.Blas.Matrix

/-!
# Worksets and the loop over the domains of the vector function
-/

namespace Plato.Mech
open Finset Plato

variable {K R : Type}

/-- The state and control worksets hold the entries of the cell, for every schedule. -/
theorem workset_ok [Zero K] {mk : Nat → K → R} {npc d nc n : Nat} {c2n : List Nat}
    {dom : Option (List Nat)} {nCells : Nat} {ws : V2 R} {u : List K} {order : List Nat}
    (hm : Mesh c2n npc nc n) (hd : DomOk dom nCells nc) (hu : u.length = n * d)
    (h0 : ws.d0 = nCells) (h1 : ws.d1 = npc * d) (ho : IsSchedule order nCells) :
    (workset mk npc d c2n dom u order ws).Sat fun ws' => ws'.d0 = nCells ∧ ws'.d1 = npc * d ∧
      ∀ c l, c < nCells → l < npc * d →
        ws'.e c l = mk l (at0 u (cellDof npc d c2n (gcell dom c) l)) := by
  unfold workset
  refine (parFor_posts ho (fun w : V2 R => w.d0 = nCells ∧ w.d1 = npc * d)
    (fun c w => ∀ l, l < npc * d → w.e c l = mk l (at0 u (cellDof npc d c2n (gcell dom c) l)))
    ⟨h0, h1⟩ ?_).mono ?_
  · rintro c w hc ⟨w0, w1⟩
    rw [cellOf_eq hd hc]
    simp only [Res.ok_bind]
    refine (forRange_inv (fun k (w' : V2 R) => w'.d0 = nCells ∧ w'.d1 = npc * d ∧
      (∀ a k', a < npc → k' < k → w'.e c (a * d + k') =
        mk (a * d + k') (at0 u (d * cellNode npc c2n (gcell dom c) a + k'))) ∧
      ∀ c' l, c' ≠ c → w'.e c' l = w.e c' l) (Nat.zero_le _)
      ⟨w0, w1, by intros; omega, by intros; rfl⟩ ?_).mono ?_
    · rintro k w' - hk ⟨a0, a1, a2, a3⟩
      refine (forRange_inv (fun a (w'' : V2 R) => w''.d0 = nCells ∧ w''.d1 = npc * d ∧
        (∀ b k', b < npc → (k' < k ∨ (k' = k ∧ b < a)) → w''.e c (b * d + k') =
          mk (b * d + k') (at0 u (d * cellNode npc c2n (gcell dom c) b + k'))) ∧
        ∀ c' l, c' ≠ c → w''.e c' l = w.e c' l) (Nat.zero_le _)
        ⟨a0, a1, ?_, a3⟩ ?_).mono ?_
      · intro b k' hb hk'
        exact a2 b k' hb (by omega)
      · rintro a w'' - ha ⟨b0, b1, b2, b3⟩
        unfold vectorEntryOrdinal
        rw [rd_atN (hm.idx (hd.1 c hc) ha)]
        simp only [Res.ok_bind, Res.pure_eq]
        have hp : atN c2n (gcell dom c * npc + a) * d + k < u.length := by
          rw [hu, Nat.mul_comm _ d]
          exact block_lt hk (hm.node_lt (hd.1 c hc) ha)
        rw [rd_at0 hp]
        simp only [Res.ok_bind]
        have hq : a * d + k < npc * d := by rw [Nat.mul_comm a]; exact block_lt hk ha
        have e2 : vwr2 w'' c (a * d + k) (mk (a * d + k) (at0 u (atN c2n (gcell dom c * npc + a) * d + k))) =
            .ok (w''.row c fun j => if j = a * d + k then
              mk (a * d + k) (at0 u (atN c2n (gcell dom c * npc + a) * d + k)) else w''.e c j) := by
          conv_lhs => rw [← V2.row_self w'' c]
          exact vwr2_row (by omega) (by omega)
        rw [e2]
        refine Res.Sat.ok ⟨b0, b1, ?_, ?_⟩
        · intro b k' hb hk'
          simp only [V2.row, if_true]
          by_cases he : b * d + k' = a * d + k
          · rw [if_pos he]
            have hk'd : k' < d := by omega
            have e1 : b = a := by
              have := div_block (q := b) hk'd
              rw [Nat.mul_comm, he, Nat.mul_comm, div_block hk] at this
              exact this.symm
            subst e1
            have e2 : k' = k := by omega
            subst e2
            unfold cellNode
            rw [Nat.mul_comm d]
          · rw [if_neg he]
            refine b2 b k' hb ?_
            rcases hk' with h | ⟨h1, h2⟩
            · exact Or.inl h
            · refine Or.inr ⟨h1, ?_⟩
              rcases Nat.lt_or_ge b a with h | h
              · exact h
              · have : b = a := by omega
                subst this; subst h1; exact absurd rfl he
        · intro c' l hne
          simp only [V2.row, hne, if_false]
          exact b3 c' l hne
      · rintro w'' ⟨b0, b1, b2, b3⟩
        refine ⟨b0, b1, ?_, b3⟩
        intro b k' hb hk'
        exact b2 b k' hb (by omega)
    · rintro w' ⟨a0, a1, a2, a3⟩
      refine ⟨⟨a0, a1⟩, ?_, ?_⟩
      · intro l hl
        have hd0 : 0 < d := Nat.pos_of_ne_zero (by rintro rfl; simp at hl)
        have := a2 (l / d) (l % d) (div_lt_of_lt hl) (Nat.mod_lt _ hd0)
        rwa [Nat.mul_comm, Nat.div_add_mod] at this
      · intro c' _ hne hp l hl
        rw [a3 c' l hne]
        exact hp l hl
  · rintro w ⟨⟨w0, w1⟩, hp⟩
    exact ⟨w0, w1, fun c l hc hl => hp c hc l hl⟩

/-- The configuration workset holds the coordinates of the nodes of the cell, for every schedule. -/
theorem worksetConfig_ok [Zero K] {mk : Nat → K → R} {npc dim nc n : Nat} {c2n : List Nat}
    {dom : Option (List Nat)} {nCells : Nat} {ws : V3 R} {x : List K} {order : List Nat}
    (hm : Mesh c2n npc nc n) (hd : DomOk dom nCells nc) (hx : x.length = n * dim)
    (h0 : ws.d0 = nCells) (h1 : ws.d1 = npc) (h2 : ws.d2 = dim) (ho : IsSchedule order nCells) :
    (worksetConfig mk npc dim c2n dom x order ws).Sat fun ws' => ws'.d0 = nCells ∧ ws'.d1 = npc ∧
      ws'.d2 = dim ∧ ∀ c a k, c < nCells → a < npc → k < dim →
        ws'.e c a k = mk (a * dim + k) (at0 x (dim * cellNode npc c2n (gcell dom c) a + k)) := by
  unfold worksetConfig
  refine (parFor_posts ho (fun w : V3 R => w.d0 = nCells ∧ w.d1 = npc ∧ w.d2 = dim)
    (fun c w => ∀ a k, a < npc → k < dim → w.e c a k =
      mk (a * dim + k) (at0 x (dim * cellNode npc c2n (gcell dom c) a + k)))
    ⟨h0, h1, h2⟩ ?_).mono ?_
  · rintro c w hc ⟨w0, w1, w2⟩
    rw [cellOf_eq hd hc]
    simp only [Res.ok_bind]
    refine (forRange_inv (fun k (w' : V3 R) => w'.d0 = nCells ∧ w'.d1 = npc ∧ w'.d2 = dim ∧
      (∀ a k', a < npc → k' < k → w'.e c a k' =
        mk (a * dim + k') (at0 x (dim * cellNode npc c2n (gcell dom c) a + k'))) ∧
      ∀ c', c' ≠ c → w'.e c' = w.e c') (Nat.zero_le _)
      ⟨w0, w1, w2, by intros; omega, by intros; rfl⟩ ?_).mono ?_
    · rintro k w' - hk ⟨a0, a1, a1', a2, a3⟩
      refine (forRange_inv (fun a (w'' : V3 R) => w''.d0 = nCells ∧ w''.d1 = npc ∧ w''.d2 = dim ∧
        (∀ b k', b < npc → (k' < k ∨ (k' = k ∧ b < a)) → w''.e c b k' =
          mk (b * dim + k') (at0 x (dim * cellNode npc c2n (gcell dom c) b + k'))) ∧
        ∀ c', c' ≠ c → w''.e c' = w.e c') (Nat.zero_le _)
        ⟨a0, a1, a1', ?_, a3⟩ ?_).mono ?_
      · intro b k' hb hk'
        exact a2 b k' hb (by omega)
      · rintro a w'' - ha ⟨b0, b1, b1', b2, b3⟩
        unfold nodeCoordinate
        rw [rd_atN (hm.idx (hd.1 c hc) ha)]
        simp only [Res.ok_bind]
        have hp : atN c2n (gcell dom c * npc + a) * dim + k < x.length := by
          rw [hx, Nat.mul_comm _ dim]
          exact block_lt hk (hm.node_lt (hd.1 c hc) ha)
        rw [rd_at0 hp]
        simp only [Res.ok_bind]
        have e2 : vwr3 w'' c a k (mk (a * dim + k) (at0 x (atN c2n (gcell dom c * npc + a) * dim + k))) =
            .ok (w''.cell c fun r' c' => if r' = a ∧ c' = k then
              mk (a * dim + k) (at0 x (atN c2n (gcell dom c * npc + a) * dim + k)) else w''.e c r' c') := by
          conv_lhs => rw [← V3.cell_self w'' c]
          exact vwr3_cell (by omega) (by omega) (by omega)
        rw [e2]
        refine Res.Sat.ok ⟨b0, b1, b1', ?_, ?_⟩
        · intro b k' hb hk'
          simp only [V3.cell, if_true]
          by_cases he : b = a ∧ k' = k
          · obtain ⟨rfl, rfl⟩ := he
            rw [if_pos ⟨rfl, rfl⟩]
            unfold cellNode
            rw [Nat.mul_comm dim]
          · rw [if_neg he]
            exact b2 b k' hb (by omega)
        · intro c' hne
          simp only [V3.cell, hne, if_false]
          exact b3 c' hne
      · rintro w'' ⟨b0, b1, b1', b2, b3⟩
        refine ⟨b0, b1, b1', ?_, b3⟩
        intro b k' hb hk'
        exact b2 b k' hb (by omega)
    · rintro w' ⟨a0, a1, a1', a2, a3⟩
      refine ⟨⟨a0, a1, a1'⟩, fun a k ha hk => a2 a k ha hk, ?_⟩
      intro c' _ hne hp a k ha hk
      rw [a3 c' hne]
      exact hp a k ha hk
  · rintro w ⟨⟨w0, w1, w2⟩, hp⟩
    exact ⟨w0, w1, w2, fun c a k hc ha hk => hp c hc a k ha hk⟩

/-- The parts of the loop: domain `k`, and the mesh for the boundary terms. -/
def FeModel.part (M : FeModel) (k : Nat) : Option (List Nat) :=
  if k < M.domains.length then some (M.domains[k]?.getD []) else none

/-- A mesh and domains the function can be built from. -/
structure FeModel.Ok (M : FeModel) : Prop where
  dim : 0 < M.dim
  ndof : 0 < M.ndof
  mesh : Mesh M.c2n M.npc M.nc M.nn
  adj : Adjacency M.orm M.oab M.nn
  graph : GraphOfMesh M.orm M.oab M.npc M.c2n M.nc
  some_domain : M.domains ≠ []
  cells : ∀ l ∈ M.domains, ∀ c ∈ l, c < M.nc

theorem FeModel.Ok.domOk {M : FeModel} (h : M.Ok) (k : Nat) :
    DomOk (M.part k) (M.size (M.part k)) M.nc := by
  unfold FeModel.part
  split_ifs with hk
  · refine domOk_of_mem fun c hc => h.cells _ ?_ c hc
    rw [List.getElem?_eq_getElem hk]
    exact List.getElem_mem hk
  · exact ⟨fun c hc => hc, fun l hl => by cases hl⟩

/-- Induction along the parts. -/
theorem FeModel.overDomains_sat {σ : Type} {M : FeModel} (hne : M.domains ≠ [])
    {body : Option (List Nat) → Nat → σ → Res σ} {s : σ} (P : Nat → σ → Prop) (h0 : P 0 s)
    (hb : ∀ k s, k ≤ M.domains.length → P k s → (body (M.part k) k s).Sat (P (k + 1))) :
    (M.overDomains body s).Sat (P (M.domains.length + 1)) := by
  unfold FeModel.overDomains
  have hlen : M.domains.length ≠ 0 := by simpa using hne
  refine Res.Sat.bind (forRange_inv P (Nat.zero_le _) h0 ?_) ?_
  · intro k s _ hk hs
    have e : rd M.domains k = .ok (M.domains[k]?.getD []) := by
      rw [List.getElem?_eq_getElem hk]
      simp [rd, hk]
    rw [e, Res.ok_bind]
    have := hb k s hk.le hs
    rwa [FeModel.part, if_pos hk] at this
  · intro s hs
    rw [if_neg hlen]
    have := hb _ s le_rfl hs
    rwa [FeModel.part, if_neg (lt_irrefl _)] at this

end Plato.Mech
