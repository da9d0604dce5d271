import Verif.Mech.Gradients
import Verif.Mech.Element
import Verif.Mech.ElasticForm

/-!
# Residuals that add one row to every cell

Most residuals have the same shape: for every cell of a domain, `evaluate` adds to the row of the cell a
function of the state, control and configuration of that cell, and of nothing else.  This file states
the shape once, `RowEv`, and derives from it the closed form of `value` and what the theorems about the
gradients need.
-/

namespace Plato.Mech
open Finset Plato

/-- `ev` adds to cell `c` of part `k` the row `row k c`, a function of the worksets of that cell, and does
nothing on the boundary. -/
structure RowEv {R : Type} [CommRing R] (M : FeModel) (ev : Evaluator R)
    (row : Nat → Nat → (Nat → R) → (Nat → R) → (Nat → Nat → R) → Nat → R) : Prop where
  ok : ∀ k cells s z x r, M.part k = some cells → PartOk M k s z x → r.d0 = M.size (M.part k) →
    r.d1 = M.npc * M.ndof → ev k s z x r =
      .ok (addRows r cells.length fun c => row k c (s.e c) (z.e c) (x.e c))
  bnd : ∀ k s z x r, M.part k = none → ev k s z x r = .ok r
  loc : ∀ k c S S' Z Z' X X', k < M.domains.length → (∀ l, l < M.npc * M.ndof → S l = S' l) →
    (∀ a, a < M.npc → Z a = Z' a) → (∀ a i, a < M.npc → i < M.dim → X a i = X' a i) →
    ∀ l, l < M.npc * M.ndof → row k c S Z X l = row k c S' Z' X' l

/-- Row of cell `c` of part `k` for vectors of the mesh. -/
noncomputable def meshRow (M : FeModel)
    (row : Nat → Nat → (Nat → ℝ) → (Nat → ℝ) → (Nat → Nat → ℝ) → Nat → ℝ) (u z x : List ℝ)
    (k c l : Nat) : ℝ :=
  row k c (M.cellU u (gcell (M.part k) c)) (M.cellZ z (gcell (M.part k) c)) (M.cellX x (gcell (M.part k) c)) l

section
variable {M : FeModel} (hM : M.Ok) {ev : Evaluator ℝ}
  {row : Nat → Nat → (Nat → ℝ) → (Nat → ℝ) → (Nat → Nat → ℝ) → Nat → ℝ} (h : RowEv M ev row)
  {u z x : List ℝ} (hu : u.length = M.nn * M.ndof) (hz : z.length = M.nn) (hx : x.length = M.nn * M.dim)
  {sch : Nat → Nat → List Nat} (hs : SchedOk M sch (M.npc * M.ndof))
include hM h hu hz hx hs

/-- Closed form of `value`: the sum over the domains and their cells of the rows. -/
theorem RowEv.value :
    (M.value ev sch u z x).Sat fun v => v.length = M.nn * M.ndof ∧
      ∀ q, at0 v q = ∑ k ∈ range M.domains.length,
        scatteredVec M.npc M.ndof M.c2n (M.part k) (M.size (M.part k)) (meshRow M row u z x k) q := by
  unfold FeModel.value
  refine (FeModel.overDomains_sat hM.some_domain (fun k v => v.length = M.nn * M.ndof ∧
    ∀ q, at0 v q = ∑ k ∈ range (min k M.domains.length),
      scatteredVec M.npc M.ndof M.c2n (M.part k) (M.size (M.part k)) (meshRow M row u z x k) q) ?_ ?_).mono ?_
  · refine ⟨by rw [List.length_replicate, Nat.mul_comm], fun q => ?_⟩
    simp only [Nat.zero_min, range_zero, sum_empty, at0, List.getElem?_replicate]
    split_ifs <;> rfl
  · rintro k v hk ⟨hl, hq⟩
    have hd := hM.domOk k
    obtain ⟨s, es, s0, s1, s2⟩ := workset_ok (mk := plainOf) (ws := ⟨M.size (M.part k), M.npc * M.ndof, fun _ _ => 0⟩)
      hM.mesh hd hu rfl rfl (hs.ws k 0 hk (by omega))
    obtain ⟨c, ez, z0, z1, z2⟩ := workset_ok (mk := plainOf) (ws := ⟨M.size (M.part k), M.npc, fun _ _ => 0⟩)
      (d := 1) hM.mesh hd (by rw [hz, Nat.mul_one]) rfl (by simp) (hs.ws k 1 hk (by omega))
    obtain ⟨g, ex, x0, x1, x2, x3⟩ := worksetConfig_ok (mk := plainOf)
      (ws := ⟨M.size (M.part k), M.npc, M.dim, fun _ _ _ => 0⟩) hM.mesh hd hx rfl rfl rfl
      (hs.ws k 2 hk (by omega))
    unfold FeModel.cellResults
    simp only [es, ez, ex, Res.ok_bind]
    have asm := (hs.asm k hk)
    by_cases hkl : k < M.domains.length
    swap
    · have hp : M.part k = none := if_neg hkl
      rw [h.bnd k _ _ _ _ hp, Res.ok_bind]
      refine (C08_assembleResidual hM.mesh hd hl le_rfl le_rfl asm).mono ?_
      rintro v' ⟨hl', hq'⟩
      refine ⟨hl', fun q => ?_⟩
      rw [hq' q, hq q, min_eq_right (by omega), min_eq_right (by omega)]
      simp [scatteredVec, V2.view2]
    · have hp : M.part k = some (M.domains[k]?.getD []) := if_pos hkl
      generalize M.domains[k]?.getD [] = cells at hp
      have hsz : M.size (M.part k) = cells.length := by rw [hp]; rfl
      rw [h.ok k cells s c g _ hp ⟨s0, s1, z0, by rw [z1, Nat.mul_one], x0, x1, x2⟩ rfl rfl, Res.ok_bind]
      refine (C08_assembleResidual hM.mesh hd hl le_rfl le_rfl asm).mono ?_
      rintro v' ⟨hl', hq'⟩
      refine ⟨hl', fun q => ?_⟩
      rw [hq' q, hq q, min_eq_left hk, min_eq_left (by omega), sum_range_succ]
      congr 1
      refine scatteredVec_congr (fun c' l hc hl => ?_) q
      have hc' : c' < cells.length := hsz ▸ hc
      simp only [V2.view2, addRows, hc', if_true, Pi.add_apply, zero_add]
      refine h.loc k c' _ _ _ _ _ _ hkl (fun l hl => s2 c' l hc hl) (fun a ha => ?_)
        (fun a i ha hi => x3 c' a i hc ha hi) l hl
      rw [z2 c' a hc (by omega), cellDof_one]
      rfl
  · rintro v ⟨hl, hq⟩
    refine ⟨hl, fun q => ?_⟩
    rw [hq q, min_eq_right (by omega)]

/-- The work of `value` on a virtual field is the sum over the cells of the work of the rows. -/
theorem RowEv.work :
    (M.value ev sch u z x).Sat fun v => v.length = M.nn * M.ndof ∧ ∀ w : Nat → ℝ,
      ∑ q ∈ range (M.nn * M.ndof), at0 v q * w q =
        ∑ k ∈ range M.domains.length, ∑ c ∈ range (M.size (M.part k)), ∑ l ∈ range (M.npc * M.ndof),
          meshRow M row u z x k c l * w (cellDof M.npc M.ndof M.c2n (gcell (M.part k) c) l) := by
  refine (RowEv.value hM h hu hz hx hs).mono ?_
  rintro v ⟨hl, hq⟩
  refine ⟨hl, fun w => ?_⟩
  simp only [hq, sum_mul]
  rw [sum_comm]
  exact sum_congr rfl fun k _ => scatteredVec_pairing hM.mesh (hM.domOk k) _ w

end

/-- If the rows computed with automatic differentiation values track the rows computed with numbers, the
evaluator is fit for the theorems about the gradients. -/
theorem RowEv.tracks {E : Type} [NormedAddCommGroup E] [NormedSpace ℝ E] {M : FeModel}
    {evR : Evaluator ℝ} {evF : Evaluator Fad}
    {rowR : Nat → Nat → (Nat → ℝ) → (Nat → ℝ) → (Nat → Nat → ℝ) → Nat → ℝ}
    {rowF : Nat → Nat → (Nat → Fad) → (Nat → Fad) → (Nat → Nat → Fad) → Nat → Fad}
    (hR : RowEv M evR rowR) (hF : RowEv M evF rowF) {good : (Nat → ℝ) → (Nat → Nat → ℝ) → Prop} {x : E}
    (ht : ∀ (k c N : Nat) (L : Nat → E →L[ℝ] ℝ) (SF ZF : Nat → Fad) (XF : Nat → Nat → Fad)
      (SR ZR : E → Nat → ℝ) (XR : E → Nat → Nat → ℝ), k < M.domains.length →
      c < M.size (M.part k) →
      (∀ l, l < M.npc * M.ndof → Tracks L N x (SF l) fun y => SR y l) →
      (∀ a, a < M.npc → Tracks L N x (ZF a) fun y => ZR y a) →
      (∀ a i, a < M.npc → i < M.dim → Tracks L N x (XF a i) fun y => XR y a i) →
      good (ZR x) (XR x) →
      ∀ l, l < M.npc * M.ndof → Tracks L N x (rowF k c SF ZF XF l) fun y => rowR k c (SR y) (ZR y) (XR y) l) :
    EvTracks M (fun _ => evR) evF good x := by
  intro k N L sF zF xF sR zR xR hk hPF hPR hs hz hx hgood
  by_cases hkl : k < M.domains.length
  swap
  · have hp : M.part k = none := if_neg hkl
    refine ⟨_, fun _ => M.fresh k, hF.bnd k _ _ _ _ hp, fun _ => hR.bnd k _ _ _ _ hp, ⟨rfl, rfl⟩,
      fun _ => ⟨rfl, rfl⟩, fun c l _ _ => Tracks.zero⟩
  have hp : M.part k = some (M.domains[k]?.getD []) := if_pos hkl
  generalize M.domains[k]?.getD [] = cells at hp
  have hsz : M.size (M.part k) = cells.length := by rw [hp]; rfl
  refine ⟨_, _, hF.ok k cells _ _ _ _ hp hPF rfl rfl, fun y => hR.ok k cells _ _ _ _ hp (hPR y) rfl rfl,
    ⟨rfl, rfl⟩, fun _ => ⟨rfl, rfl⟩, fun c l hc hl => ?_⟩
  have hc' : c < cells.length := hsz ▸ hc
  simp only [addRows, hc', if_true, Pi.add_apply, FeModel.fresh]
  exact Tracks.zero.add (ht k c N (L c) _ _ _ (fun y => (sR y).e c) (fun y => (zR y).e c) (fun y => (xR y).e c)
    hkl hc (fun l hl => hs c l hc hl) (fun a ha => hz c a hc ha) (fun a i ha hi => hx c a i hc ha hi)
    (hgood c hc) l hl)

/-! ## Loops that add one row to every cell -/

theorem V2.row_row {R : Type} {y : V2 R} {c : Nat} {f g : Nat → R} : (y.row c f).row c g = y.row c g := by
  unfold V2.row
  congr 1
  funext r
  by_cases h : r = c <;> simp [h]

/-- A loop over the cells whose body adds a row to its own cell and keeps an invariant of its work
views. -/
theorem rowLoop {R W : Type} [CommRing R] {nc : Nat} {order : List Nat} (hs : IsSchedule order nc) {I : W → Prop}
    {w : W} (hw : I w) {result : V2 R} (δ : Nat → Nat → R) {body : Nat → W × V2 R → Res (W × V2 R)}
    (step : ∀ c w out, c < nc → I w → out.d0 = result.d0 → out.d1 = result.d1 →
      (body c (w, out)).Sat fun s => I s.1 ∧ s.2 = out.row c (out.e c + δ c)) :
    (parFor order (w, result) body).Sat fun s => I s.1 ∧ s.2 = addRows result nc δ := by
  refine (parFor_sched hs (fun D (s : W × V2 R) => I s.1 ∧ s.2 = ⟨result.d0, result.d1, fun c =>
    if c ∈ D then result.e c + δ c else result.e c⟩) ⟨hw, by simp⟩ ?_).mono ?_
  · rintro D c ⟨w, out⟩ hc hD - ⟨hI, ho⟩
    dsimp only at hI ho
    have ho0 : out.d0 = result.d0 := by rw [ho]
    have ho1 : out.d1 = result.d1 := by rw [ho]
    refine (step c w out hc hI ho0 ho1).mono ?_
    rintro s ⟨h1, h2⟩
    refine ⟨h1, ?_⟩
    rw [h2, ho]
    simp only [V2.row, V2.mk.injEq, true_and]
    funext r
    by_cases hne : r = c
    · simp [hne, hD]
    · simp [hne, mem_insert]
  · rintro s ⟨h1, h⟩
    exact ⟨h1, by simpa [addRows] using h⟩

/-- The loop over the body loads. -/
theorem bodyLoads_ok {R : Type} [CommRing R] [Div R] {d ndof : Nat} {cells : List Nat} {sched : Nat → List Nat}
    (hs : ∀ k, IsSchedule (sched k) cells.length) {control : V2 R} (hz0 : cells.length ≤ control.d0)
    (hz1 : d + 1 ≤ control.d1) (scale : R) :
    ∀ (Ls : List (BodyLoad R)) (y : V2 R) (k : Nat), (∀ L ∈ Ls, L.Ok d ndof cells) →
      cells.length ≤ y.d0 → (d + 1) * ndof ≤ y.d1 →
      ∃ k', Ls.foldlM (fun (s : V2 R × Nat) L => do
          let y ← L.get d ndof cells (sched s.2) control s.1 scale
          pure (y, s.2 + 1)) (y, k) = .ok (addRows y cells.length fun c =>
            (Ls.map fun L => L.row d ndof c (atN cells c) (control.e c) scale).sum, k') := by
  intro Ls
  induction Ls with
  | nil =>
    intro y k _ _ _
    refine ⟨k, ?_⟩
    simp only [List.foldlM_nil, List.map_nil, List.sum_nil, addRows, add_zero, ite_self]
    rfl
  | cons L Ls ih =>
    intro y k hL h0 h1
    rw [List.foldlM_cons, BodyLoad.get_ok (hL L (List.mem_cons_self ..)) (hs _) hz0 hz1 h0 h1]
    obtain ⟨k', hk⟩ := ih (addRows y cells.length fun c =>
      L.row d ndof c (atN cells c) (control.e c) scale) (k + 1) (fun M hM => hL M (List.mem_cons_of_mem _ hM)) h0 h1
    refine ⟨k', hk.trans ?_⟩
    congr 2
    simp only [addRows, V2.mk.injEq, true_and]
    funext c
    by_cases hc : c < cells.length
    · simp [hc, add_assoc]
    · simp [hc]

theorem addRows_addRows {R : Type} [CommRing R] {y : V2 R} {n : Nat} {a b : Nat → Nat → R} :
    addRows (addRows y n a) n b = addRows y n fun c => a c + b c := by
  simp only [addRows, V2.mk.injEq, true_and]
  funext c
  by_cases hc : c < n <;> simp [hc, add_assoc]

end Plato.Mech
