import Verif.Mech.VectorWorkset
import Mathlib.Analysis.Calculus.FDeriv.Pi

/-!
# The gradients of a vector function are its derivatives

The evaluators are arbitrary: all that is used is that they compute cell by cell with automatic
differentiation values what they compute with numbers (`EvTracks`), which `Verif.Mech.Track` proves for
the elastostatic residual.
-/

namespace Plato.Mech
open Finset Plato

variable {E : Type} [NormedAddCommGroup E] [NormedSpace ℝ E]

/-- Extents of the worksets of part `k`. -/
structure PartOk {R : Type} (M : FeModel) (k : Nat) (s z : V2 R) (x : V3 R) : Prop where
  s0 : s.d0 = M.size (M.part k)
  s1 : s.d1 = M.npc * M.ndof
  z0 : z.d0 = M.size (M.part k)
  z1 : z.d1 = M.npc
  x0 : x.d0 = M.size (M.part k)
  x1 : x.d1 = M.npc
  x2 : x.d2 = M.dim

/-- A fresh result workset of part `k`. -/
def FeModel.fresh {R : Type} [Zero R] (M : FeModel) (k : Nat) : V2 R :=
  ⟨M.size (M.part k), M.npc * M.ndof, fun _ _ => 0⟩

/-- The evaluator with automatic differentiation values `evF` and the evaluators with numbers `evR y`
compute the same functions at `x`: whenever the entries of the worksets of a cell track functions of
`y`, with any independent variables of that cell, so do the entries of the result.  `good` is what the
evaluator needs from the controls and the configuration of each cell.  The evaluator with numbers may
itself depend on `y`, since evaluators hold a reference to the mesh. -/
def EvTracks (M : FeModel) (evR : E → Evaluator ℝ) (evF : Evaluator Fad)
    (good : (Nat → ℝ) → (Nat → Nat → ℝ) → Prop) (x : E) : Prop :=
  ∀ (k N : Nat) (L : Nat → Nat → E →L[ℝ] ℝ) (sF zF : V2 Fad) (xF : V3 Fad) (sR zR : E → V2 ℝ)
    (xR : E → V3 ℝ), k ≤ M.domains.length → PartOk M k sF zF xF → (∀ y, PartOk M k (sR y) (zR y) (xR y)) →
    (∀ c l, c < M.size (M.part k) → l < M.npc * M.ndof →
      Tracks (L c) N x (sF.e c l) fun y => (sR y).e c l) →
    (∀ c l, c < M.size (M.part k) → l < M.npc → Tracks (L c) N x (zF.e c l) fun y => (zR y).e c l) →
    (∀ c a i, c < M.size (M.part k) → a < M.npc → i < M.dim →
      Tracks (L c) N x (xF.e c a i) fun y => (xR y).e c a i) →
    (∀ c, c < M.size (M.part k) → good ((zR x).e c) ((xR x).e c)) →
    ∃ (rF : V2 Fad) (rR : E → V2 ℝ), evF k sF zF xF (M.fresh k) = .ok rF ∧
      (∀ y, evR y k (sR y) (zR y) (xR y) (M.fresh k) = .ok (rR y)) ∧
      (rF.d0 = M.size (M.part k) ∧ rF.d1 = M.npc * M.ndof) ∧
      (∀ y, (rR y).d0 = M.size (M.part k) ∧ (rR y).d1 = M.npc * M.ndof) ∧
      ∀ c l, c < M.size (M.part k) → l < M.npc * M.ndof →
        Tracks (L c) N x (rF.e c l) fun y => (rR y).e c l

/-- Controls and configuration of a global cell. -/
def FeModel.cellZ (M : FeModel) (z : List ℝ) (cell : Nat) (a : Nat) : ℝ :=
  at0 z (cellNode M.npc M.c2n cell a)
/-- Coordinates of the nodes of a global cell. -/
def FeModel.cellX (M : FeModel) (x : List ℝ) (cell : Nat) (a k : Nat) : ℝ :=
  at0 x (M.dim * cellNode M.npc M.c2n cell a + k)

/-- What `good` means does not depend on entries that do not exist. -/
def GoodLocal (M : FeModel) (good : (Nat → ℝ) → (Nat → Nat → ℝ) → Prop) : Prop :=
  ∀ Z Z' X X', (∀ a, a < M.npc → Z a = Z' a) → (∀ a k, a < M.npc → k < M.dim → X a k = X' a k) →
    good Z X → good Z' X'

/-- Schedules of the kernels of part `k`; `w` updates per cell in the assembly. -/
structure SchedOk (M : FeModel) (sch : Nat → Nat → List Nat) (w : Nat) : Prop where
  ws : ∀ k j, k ≤ M.domains.length → j < 3 → IsSchedule (sch k j) (M.size (M.part k))
  asm : ∀ k, k ≤ M.domains.length → IsSchedule (sch k 3) (M.size (M.part k) * w)

section Parts
variable {M : FeModel} (hM : M.Ok) {evR : E → Evaluator ℝ} {evF : Evaluator Fad}
  {good : (Nat → ℝ) → (Nat → Nat → ℝ) → Prop} (hg : GoodLocal M good) {x : E}
  (hev : EvTracks M evR evF good x)
  {uR zR xR : E → List ℝ} (hu : ∀ y, (uR y).length = M.nn * M.ndof)
  (hz : ∀ y, (zR y).length = M.nn) (hx : ∀ y, (xR y).length = M.nn * M.dim)
  (hgood : ∀ c, c < M.nc → good (M.cellZ (zR x) c) (M.cellX (xR x) c))
  {mkS mkZ mkX : Nat → ℝ → Fad} {N : Nat} {L : Nat → Nat → E →L[ℝ] ℝ}
  (hS : ∀ c l, c < M.nc → l < M.npc * M.ndof → Tracks (L c) N x
    (mkS l (at0 (uR x) (cellDof M.npc M.ndof M.c2n c l)))
    fun y => at0 (uR y) (cellDof M.npc M.ndof M.c2n c l))
  (hZ : ∀ c l, c < M.nc → l < M.npc → Tracks (L c) N x (mkZ l (M.cellZ (zR x) c l))
    fun y => M.cellZ (zR y) c l)
  (hX : ∀ c a k, c < M.nc → a < M.npc → k < M.dim → Tracks (L c) N x
    (mkX (a * M.dim + k) (M.cellX (xR x) c a k)) fun y => M.cellX (xR y) c a k)

theorem cellDof_one (npc : Nat) (c2n : List Nat) (cell l : Nat) :
    cellDof npc 1 c2n cell l = cellNode npc c2n cell l := by
  unfold cellDof
  rw [Nat.div_one, Nat.mod_one, Nat.one_mul, Nat.add_zero]

include hM hg hev hu hz hx hgood hS hZ hX

/-- One part: the results with numbers and with automatic differentiation values. -/
theorem cellResults_ok {schF : Nat → Nat → List Nat} {schR : E → Nat → Nat → List Nat} {wF wR : Nat}
    (hsF : SchedOk M schF wF) (hsR : ∀ y, SchedOk M (schR y) wR) {k : Nat} (hk : k ≤ M.domains.length) :
    ∃ (rF : V2 Fad) (rR : E → V2 ℝ),
      M.cellResults mkS mkZ mkX evF (M.part k) k schF (uR x) (zR x) (xR x) = .ok rF ∧
      (∀ y, M.cellResults plainOf plainOf plainOf (evR y) (M.part k) k (schR y) (uR y) (zR y) (xR y) =
        .ok (rR y)) ∧
      (rF.d0 = M.size (M.part k) ∧ rF.d1 = M.npc * M.ndof) ∧
      (∀ y, (rR y).d0 = M.size (M.part k) ∧ (rR y).d1 = M.npc * M.ndof) ∧
      ∀ c l, c < M.size (M.part k) → l < M.npc * M.ndof →
        Tracks (L (gcell (M.part k) c)) N x (rF.e c l) fun y => (rR y).e c l := by
  have hd := hM.domOk k
  obtain ⟨sF, es, s0, s1, s2⟩ := workset_ok (mk := mkS) (ws := ⟨M.size (M.part k), M.npc * M.ndof, fun _ _ => 0⟩)
    hM.mesh hd (hu x) rfl rfl (hsF.ws k 0 hk (by omega))
  obtain ⟨zF, ez, z0, z1, z2⟩ := workset_ok (mk := mkZ) (ws := ⟨M.size (M.part k), M.npc, fun _ _ => 0⟩)
    (d := 1) hM.mesh hd (by rw [hz x, Nat.mul_one]) rfl (by simp) (hsF.ws k 1 hk (by omega))
  obtain ⟨xF, ex, x0, x1, x2, x3⟩ := worksetConfig_ok (mk := mkX)
    (ws := ⟨M.size (M.part k), M.npc, M.dim, fun _ _ _ => 0⟩) hM.mesh hd (hx x) rfl rfl rfl
    (hsF.ws k 2 hk (by omega))
  have hR : ∀ y, ∃ s z g, workset plainOf M.npc M.ndof M.c2n (M.part k) (uR y) (schR y k 0)
        ⟨M.size (M.part k), M.npc * M.ndof, fun _ _ => 0⟩ = .ok s ∧
      workset plainOf M.npc 1 M.c2n (M.part k) (zR y) (schR y k 1)
        ⟨M.size (M.part k), M.npc, fun _ _ => 0⟩ = .ok z ∧
      worksetConfig plainOf M.npc M.dim M.c2n (M.part k) (xR y) (schR y k 2)
        ⟨M.size (M.part k), M.npc, M.dim, fun _ _ _ => 0⟩ = .ok g ∧ PartOk M k s z g ∧
      (∀ c l, c < M.size (M.part k) → l < M.npc * M.ndof →
        s.e c l = at0 (uR y) (cellDof M.npc M.ndof M.c2n (gcell (M.part k) c) l)) ∧
      (∀ c l, c < M.size (M.part k) → l < M.npc → z.e c l = M.cellZ (zR y) (gcell (M.part k) c) l) ∧
      ∀ c a i, c < M.size (M.part k) → a < M.npc → i < M.dim →
        g.e c a i = M.cellX (xR y) (gcell (M.part k) c) a i := by
    intro y
    obtain ⟨s, es, s0, s1, s2⟩ := workset_ok (mk := plainOf) (ws := ⟨M.size (M.part k), M.npc * M.ndof, fun _ _ => 0⟩)
      hM.mesh hd (hu y) rfl rfl ((hsR y).ws k 0 hk (by omega))
    obtain ⟨z, ez, z0, z1, z2⟩ := workset_ok (mk := plainOf) (ws := ⟨M.size (M.part k), M.npc, fun _ _ => 0⟩)
      (d := 1) hM.mesh hd (by rw [hz y, Nat.mul_one]) rfl (by simp) ((hsR y).ws k 1 hk (by omega))
    obtain ⟨g, ex, x0, x1, x2, x3⟩ := worksetConfig_ok (mk := plainOf)
      (ws := ⟨M.size (M.part k), M.npc, M.dim, fun _ _ _ => 0⟩) hM.mesh hd (hx y) rfl rfl rfl
      ((hsR y).ws k 2 hk (by omega))
    refine ⟨s, z, g, es, ez, ex, ⟨s0, s1, z0, by rw [z1, Nat.mul_one], x0, x1, x2⟩, s2, ?_, x3⟩
    intro c l hc hl
    rw [z2 c l hc (by omega), cellDof_one]
    rfl
  choose sR zR' xR' e1 e2 e3 e4 e5 e6 e7 using hR
  have z2' : ∀ c l, c < M.size (M.part k) → l < M.npc →
      zF.e c l = mkZ l (M.cellZ (zR x) (gcell (M.part k) c) l) := by
    intro c l hc hl
    rw [z2 c l hc (by omega), cellDof_one]
    rfl
  obtain ⟨rF, rR, h1, h2, h3, h4, h5⟩ := hev k N (fun c => L (gcell (M.part k) c)) sF zF xF sR zR' xR' hk
    ⟨s0, s1, z0, by rw [z1, Nat.mul_one], x0, x1, x2⟩ e4
    (fun c l hc hl => by
      rw [s2 c l hc hl]
      exact (hS _ l (hd.1 c hc) hl).congr (funext fun y => (e5 y c l hc hl).symm))
    (fun c l hc hl => by
      rw [z2' c l hc hl]
      exact (hZ _ l (hd.1 c hc) hl).congr (funext fun y => (e6 y c l hc hl).symm))
    (fun c a i hc ha hi => by
      rw [x3 c a i hc ha hi]
      exact (hX _ a i (hd.1 c hc) ha hi).congr (funext fun y => (e7 y c a i hc ha hi).symm))
    (fun c hc => hg _ _ _ _ (fun a ha => (e6 x c a hc ha).symm)
      (fun a i ha hi => (e7 x c a i hc ha hi).symm) (hgood _ (hd.1 c hc)))
  refine ⟨rF, rR, ?_, ?_, h3, h4, h5⟩
  · unfold FeModel.cellResults
    rw [es, Res.ok_bind, ez, Res.ok_bind, ex, Res.ok_bind]
    exact h1
  · intro y
    unfold FeModel.cellResults
    rw [e1 y, Res.ok_bind, e2 y, Res.ok_bind, e3 y, Res.ok_bind]
    exact h2 y

/-- The residual and its derivative in terms of the cell results with automatic differentiation
values. -/
theorem value_hasFDeriv {schF : Nat → Nat → List Nat} {schR : E → Nat → Nat → List Nat} {wF : Nat}
    (hsF : SchedOk M schF wF) (hsR : ∀ y, SchedOk M (schR y) (M.npc * M.ndof)) :
    ∃ (rF : Nat → V2 Fad) (v : E → List ℝ),
      (∀ k, k ≤ M.domains.length →
        M.cellResults mkS mkZ mkX evF (M.part k) k schF (uR x) (zR x) (xR x) = .ok (rF k) ∧
        (rF k).d0 = M.size (M.part k) ∧ (rF k).d1 = M.npc * M.ndof) ∧
      (∀ y, M.value (evR y) (schR y) (uR y) (zR y) (xR y) = .ok (v y)) ∧
      (∀ y, (v y).length = M.nn * M.ndof) ∧
      ∀ q, HasFDerivAt (fun y => at0 (v y) q) (∑ k ∈ range (M.domains.length + 1),
        ∑ c ∈ range (M.size (M.part k)), ∑ l ∈ range (M.npc * M.ndof),
          if cellDof M.npc M.ndof M.c2n (gcell (M.part k) c) l = q then
            ∑ s ∈ range N, ((rF k).e c l).dx s • L (gcell (M.part k) c) s else 0) x := by
  have hp : ∀ k, ∃ (rF : V2 Fad) (rR : E → V2 ℝ), k ≤ M.domains.length →
      M.cellResults mkS mkZ mkX evF (M.part k) k schF (uR x) (zR x) (xR x) = .ok rF ∧
      (∀ y, M.cellResults plainOf plainOf plainOf (evR y) (M.part k) k (schR y) (uR y) (zR y) (xR y) =
        .ok (rR y)) ∧
      (rF.d0 = M.size (M.part k) ∧ rF.d1 = M.npc * M.ndof) ∧
      (∀ y, (rR y).d0 = M.size (M.part k) ∧ (rR y).d1 = M.npc * M.ndof) ∧
      ∀ c l, c < M.size (M.part k) → l < M.npc * M.ndof →
        Tracks (L (gcell (M.part k) c)) N x (rF.e c l) fun y => (rR y).e c l := by
    intro k
    by_cases hk : k ≤ M.domains.length
    · obtain ⟨rF, rR, h⟩ := cellResults_ok hM hg hev hu hz hx hgood hS hZ hX hsF hsR hk
      exact ⟨rF, rR, fun _ => h⟩
    · exact ⟨⟨0, 0, fun _ _ => 0⟩, fun _ => ⟨0, 0, fun _ _ => 0⟩, fun h => absurd h hk⟩
  choose rF rR hp using hp
  have hv : ∀ y, (M.value (evR y) (schR y) (uR y) (zR y) (xR y)).Sat fun v => v.length = M.nn * M.ndof ∧
      ∀ q, at0 v q = ∑ k ∈ range (M.domains.length + 1),
        scatteredVec M.npc M.ndof M.c2n (M.part k) (M.size (M.part k)) (rR k y).e q := by
    intro y
    unfold FeModel.value
    refine FeModel.overDomains_sat hM.some_domain (fun k v => v.length = M.nn * M.ndof ∧
      ∀ q, at0 v q = ∑ k ∈ range k,
        scatteredVec M.npc M.ndof M.c2n (M.part k) (M.size (M.part k)) (rR k y).e q) ?_ ?_
    · refine ⟨by rw [List.length_replicate, Nat.mul_comm], fun q => ?_⟩
      simp only [range_zero, sum_empty, at0, List.getElem?_replicate]
      split_ifs <;> rfl
    · rintro k v hk ⟨hl, hq⟩
      rw [(hp k hk).2.1 y, Res.ok_bind]
      refine (C08_assembleResidual hM.mesh (hM.domOk k) hl ?_ ?_ ((hsR y).asm k hk)).mono ?_
      · exact ((hp k hk).2.2.2.1 y).1.ge
      · exact ((hp k hk).2.2.2.1 y).2.ge
      · rintro v' ⟨hl', hq'⟩
        refine ⟨hl', fun q => ?_⟩
        rw [hq' q, hq q, sum_range_succ]
        rfl
  choose v hv1 hv2 using hv
  refine ⟨rF, v, fun k hk => ⟨(hp k hk).1, (hp k hk).2.2.1⟩, hv1, fun y => (hv2 y).1, fun q => ?_⟩
  have e : (fun y => at0 (v y) q) = fun y => ∑ k ∈ range (M.domains.length + 1),
      scatteredVec M.npc M.ndof M.c2n (M.part k) (M.size (M.part k)) (rR k y).e q :=
    funext fun y => (hv2 y).2 q
  rw [e]
  unfold scatteredVec
  refine HasFDerivAt.fun_sum fun k hk => HasFDerivAt.fun_sum fun c hc => HasFDerivAt.fun_sum fun l hl => ?_
  split_ifs
  · exact ((hp k (Nat.lt_succ_iff.1 (mem_range.1 hk))).2.2.2.2 c l (mem_range.1 hc) (mem_range.1 hl)).deriv
  · exact hasFDerivAt_const _ _

end Parts

end Plato.Mech
