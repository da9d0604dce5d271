import Verif.Bnd.Value
import Verif.Crit.Elastic

/-!
# C43, C48: the gradients of a residual with natural boundary conditions
-/

namespace Plato.Bnd
open Finset Plato Plato.Mech Plato.Crit

/-- A cell that is not degenerate has no degenerate face. -/
theorem faceArg2_ne {X : Nat → Nat → ℝ} (h : detForm 2 X ≠ 0) {a b : Nat} (ha : a < 3) (hb : b < 3) (hab : a ≠ b) :
    (X a 0 - X b 0) * (X a 0 - X b 0) + (X a 1 - X b 1) * (X a 1 - X b 1) ≠ 0 := by
  intro h0
  have h1 : X a 0 - X b 0 = 0 := by nlinarith [mul_self_nonneg (X a 0 - X b 0), mul_self_nonneg (X a 1 - X b 1)]
  have h2 : X a 1 - X b 1 = 0 := by nlinarith [mul_self_nonneg (X a 0 - X b 0), mul_self_nonneg (X a 1 - X b 1)]
  apply h
  clear h h0
  simp only [detForm, edge]
  interval_cases a <;> interval_cases b <;> first
    | exact absurd rfl hab
    | linear_combination (X 1 1 - X 2 1) * h1 - (X 1 0 - X 2 0) * h2
    | linear_combination -(X 1 1 - X 2 1) * h1 + (X 1 0 - X 2 0) * h2
    | linear_combination (X 0 0 - X 2 0) * h2 - (X 0 1 - X 2 1) * h1
    | linear_combination -(X 0 0 - X 2 0) * h2 + (X 0 1 - X 2 1) * h1

set_option maxHeartbeats 2000000 in
theorem faceArg3_ne {X : Nat → Nat → ℝ} (h : detForm 3 X ≠ 0) {l0 l1 l2 : Nat} (h0 : l0 < 4) (h1 : l1 < 4) (h2 : l2 < 4)
    (h01 : l0 ≠ l1) (h02 : l0 ≠ l2) (h12 : l1 ≠ l2) :
    ((X l0 1 - X l2 1) * (X l1 2 - X l2 2) - (X l0 2 - X l2 2) * (X l1 1 - X l2 1)) *
      ((X l0 1 - X l2 1) * (X l1 2 - X l2 2) - (X l0 2 - X l2 2) * (X l1 1 - X l2 1)) +
    ((X l0 2 - X l2 2) * (X l1 0 - X l2 0) - (X l0 0 - X l2 0) * (X l1 2 - X l2 2)) *
      ((X l0 2 - X l2 2) * (X l1 0 - X l2 0) - (X l0 0 - X l2 0) * (X l1 2 - X l2 2)) +
    ((X l0 0 - X l2 0) * (X l1 1 - X l2 1) - (X l0 1 - X l2 1) * (X l1 0 - X l2 0)) *
      ((X l0 0 - X l2 0) * (X l1 1 - X l2 1) - (X l0 1 - X l2 1) * (X l1 0 - X l2 0)) ≠ 0 := by
  set p := (X l0 1 - X l2 1) * (X l1 2 - X l2 2) - (X l0 2 - X l2 2) * (X l1 1 - X l2 1) with hp
  set q := (X l0 2 - X l2 2) * (X l1 0 - X l2 0) - (X l0 0 - X l2 0) * (X l1 2 - X l2 2) with hq
  set r := (X l0 0 - X l2 0) * (X l1 1 - X l2 1) - (X l0 1 - X l2 1) * (X l1 0 - X l2 0) with hr
  intro hz
  have e1 : p = 0 := by nlinarith [mul_self_nonneg p, mul_self_nonneg q, mul_self_nonneg r]
  have e2 : q = 0 := by nlinarith [mul_self_nonneg p, mul_self_nonneg q, mul_self_nonneg r]
  have e3 : r = 0 := by nlinarith [mul_self_nonneg p, mul_self_nonneg q, mul_self_nonneg r]
  have key : detForm 3 X = (X (6 - l0 - l1 - l2) 0 - X l2 0) * p + (X (6 - l0 - l1 - l2) 1 - X l2 1) * q +
        (X (6 - l0 - l1 - l2) 2 - X l2 2) * r ∨
      detForm 3 X = -((X (6 - l0 - l1 - l2) 0 - X l2 0) * p + (X (6 - l0 - l1 - l2) 1 - X l2 1) * q +
        (X (6 - l0 - l1 - l2) 2 - X l2 2) * r) := by
    clear e1 e2 e3 hz h
    rw [hp, hq, hr]
    clear_value p q r
    clear hp hq hr
    simp only [detForm, edge, detj3]
    interval_cases l0 <;> interval_cases l1 <;> interval_cases l2 <;> first
      | exact absurd rfl h01
      | exact absurd rfl h02
      | exact absurd rfl h12
      | (simp only [Nat.reduceSub]; left; ring1)
      | (simp only [Nat.reduceSub]; right; ring1)
  apply h
  rcases key with k | k <;> rw [k, e1, e2, e3] <;> ring

section
variable {E : Type} [NormedAddCommGroup E] [NormedSpace ℝ E] {L : Nat → E →L[ℝ] ℝ} {N : Nat} {x : E}

theorem Tracks_listSum {α : Type} (l : List α) {a : α → Fad} {f : α → E → ℝ} (h : ∀ i ∈ l, Tracks L N x (a i) (f i)) :
    Tracks L N x (l.map a).sum fun y => (l.map fun i => f i y).sum := by
  induction l with
  | nil => exact Tracks.zero
  | cons i l ih =>
    simp only [List.map_cons, List.sum_cons]
    exact (h i (by simp)).add (ih fun j hj => h j (by simp [hj]))

/-- The weight of a face follows the chain rule if the face is not degenerate. -/
theorem weightForm_tracks {d : Nat} (hd : d = 1 ∨ d = 2 ∨ d = 3) (m : ℝ) {loc : Nat → Nat}
    (hl : ∀ i, i < d → loc i < d + 1) (hinj : ∀ i j, i < d → j < d → loc i = loc j → i = j)
    {XF : Nat → Nat → Fad} {XR : E → Nat → Nat → ℝ}
    (hX : ∀ a k, a < d + 1 → k < d → Tracks L N x (XF a k) fun y => XR y a k) (hdet : detForm d (XR x) ≠ 0) :
    Tracks L N x (weightForm sqrtFad d (Fad.const m) fun n k => XF (loc n) k)
      fun y => weightForm Real.sqrt d m fun n k => XR y (loc n) k := by
  unfold weightForm
  have hT : ∀ n k, n < d → k < d → Tracks L N x (XF (loc n) k) fun y => XR y (loc n) k :=
    fun n k hn hk => hX _ _ (hl n hn) hk
  rcases hd with rfl | rfl | rfl
  · simp only [if_true]
    exact Tracks.const m
  · simp only [if_neg (show ¬ 2 = 1 by omega), if_true]
    have e := fun k hk => (hT 0 k (by omega) hk).sub (hT 1 k (by omega) hk)
    refine (Tracks.const m).mul (sqrt_tracks (((e 0 (by omega)).mul (e 0 (by omega))).add
      ((e 1 (by omega)).mul (e 1 (by omega)))) ?_)
    refine faceArg2_ne hdet (hl 0 (by omega)) (hl 1 (by omega)) fun h => ?_
    have := hinj 0 1 (by omega) (by omega) h
    omega
  · simp only [if_neg (show ¬ 3 = 1 by omega), if_neg (show ¬ 3 = 2 by omega)]
    have a := fun k hk => (hT 0 k (by omega) hk).sub (hT 2 k (by omega) hk)
    have b := fun k hk => (hT 1 k (by omega) hk).sub (hT 2 k (by omega) hk)
    have c := fun j k hj hk => ((a j hj).mul (b k hk)).sub ((a k hk).mul (b j hj))
    have s := fun j k hj hk => (c j k hj hk).mul (c j k hj hk)
    refine (Tracks.const m).mul (sqrt_tracks (((s 1 2 (by omega) (by omega)).add (s 2 0 (by omega) (by omega))).add
      (s 0 1 (by omega) (by omega))) ?_)
    refine faceArg3_ne hdet (hl 0 (by omega)) (hl 1 (by omega)) (hl 2 (by omega)) ?_ ?_ ?_
    · exact fun h => by have := hinj 0 1 (by omega) (by omega) h; omega
    · exact fun h => by have := hinj 0 2 (by omega) (by omega) h; omega
    · exact fun h => by have := hinj 1 2 (by omega) (by omega) h; omega

/-- The nodes of a face are different. -/
def FacesDistinct (d : Nat) (F : Faces) (set : List Nat) : Prop :=
  ∀ f ∈ set, ∀ i j, i < d → j < d → F.node d f i = F.node d f j → i = j

theorem term_tracks (B : NaturalBC) (d : Nat) (F : Faces) (normal : Nat → Nat → Nat → ℝ) (c f k : Nat) {w : Fad} {g : E → ℝ}
    (hw : Tracks L N x w g) : Tracks L N x (B.term Fad.const d F normal c f w k) fun y => B.term id d F normal c f (g y) k := by
  cases B with
  | load s flux => exact hw.mul (Tracks.const _)
  | pressure s flux => exact ((Tracks.const _).mul (Tracks.const _)).mul hw

end

/-- **C43** for the boundary terms: if the evaluator of the domains follows the chain rule, so does the evaluator with
natural boundary conditions, the normals being constants. -/
theorem boundary_tracks {E : Type} [NormedAddCommGroup E] [NormedSpace ℝ E] {M : FeModel} {evR : E → Evaluator ℝ}
    {evF : Evaluator Fad} {good : (Nat → ℝ) → (Nat → Nat → ℝ) → Prop} {x : E} (hev : EvTracks M evR evF good x)
    (hM : M.Ok) (hgood : ∀ Z X, good Z X → detForm M.dim X ≠ 0)
    {Y : Layout} (hY : Y.numDofs + Y.offset ≤ Y.dofsPerNode) (hYn : Y.dofsPerNode = M.ndof)
    (hd : M.dim = 1 ∨ M.dim = 2 ∨ M.dim = 3) {F : Faces} {bcs : List NaturalBC} (hB : BCsOk M.dim M.nc M.c2n F bcs)
    (hdist : ∀ B ∈ bcs, FacesDistinct M.dim F B.set)
    (normal : Nat → Nat → Nat → ℝ) (scale cub : ℝ) (initR initF : Nat → Nat → Nat → Nat) {oR oF : Nat → List Nat}
    (hoR : ∀ b B, bcs[b]? = some B → IsSchedule (oR b) B.set.length)
    (hoF : ∀ b B, bcs[b]? = some B → IsSchedule (oF b) B.set.length) :
    EvTracks M (fun y => withBoundary M (evR y) fun g r =>
        naturalBCs Real.sqrt id M.dim Y M.c2n F normal scale cub initR oR g bcs r)
      (withBoundary M evF fun g r =>
        naturalBCs sqrtFad Fad.const M.dim Y M.c2n F normal scale cub initF oF g bcs r) good x := by
  intro k N L sF zF xF sR zR xR hk hF hR hs hz hx hg
  by_cases hkl : k < M.domains.length
  · have e1 : withBoundary M evF (fun g r =>
        naturalBCs sqrtFad Fad.const M.dim Y M.c2n F normal scale cub initF oF g bcs r) k = evF k := by
      funext s z x r
      exact if_pos hkl
    have e2 : ∀ y, withBoundary M (evR y) (fun g r =>
        naturalBCs Real.sqrt id M.dim Y M.c2n F normal scale cub initR oR g bcs r) k = evR y k := by
      intro y
      funext s z x r
      exact if_pos hkl
    simp only [e1, e2]
    exact hev k N L sF zF xF sR zR xR hk hF hR hs hz hx hg
  have hp : M.part k = none := if_neg hkl
  have hsz : M.size (M.part k) = M.nc := by rw [hp]; rfl
  have hlen : M.c2n.length = M.nc * (M.dim + 1) := by
    have := hM.mesh.length
    simpa [FeModel.npc] using this
  have hF' := naturalBCs_ok sqrtFad Fad.const hd hY hlen hB normal scale cub initF hoF (x := xF)
    (by rw [hF.x0, hsz]) hF.x1 hF.x2 (r := M.fresh k) hsz.ge (by rw [hYn]; exact le_rfl)
  have hR' := fun y => naturalBCs_ok Real.sqrt id hd hY hlen hB normal scale cub initR hoR (x := xR y)
    (by rw [(hR y).x0, hsz]) (hR y).x1 (hR y).x2 (r := M.fresh k) hsz.ge (by rw [hYn]; exact le_rfl)
  refine ⟨_, _, (if_neg hkl).trans hF', fun y => (if_neg hkl).trans (hR' y), ⟨rfl, rfl⟩, fun _ => ⟨rfl, rfl⟩, ?_⟩
  intro c l hc hl
  refine Tracks.zero.add ?_
  unfold bndRow
  refine Tracks_listSum _ fun B hBm => Tracks_listSum _ fun face hface => ?_
  have hFB := hB.faces B hBm
  unfold faceAddsOf
  simp only [addedAt_flatMap]
  refine Tracks_listSum _ fun cell hcell => ?_
  have hcn := hFB.cell face hface cell hcell
  have hsub := hFB.sub face hface cell hcell
  unfold cellAdds
  simp only [addedAt_flatMap]
  refine Tracks_listSum _ fun n hn => ?_
  unfold addedAt
  simp only [List.map_map, Function.comp_def]
  refine Tracks_listSum _ fun j hj => ?_
  by_cases hcc : cell = c
  · subst hcc
    split_ifs with hpl
    · refine term_tracks B _ _ _ _ _ _ ?_
      refine weightForm_tracks hd _ (fun i hi => (localOf_spec (hsub i hi)).1) ?_
        (fun a i ha hi => hx cell a i hc ha hi) (hgood _ _ (hg cell hc))
      intro i i' hi hi' he
      refine hdist B hBm face hface i i' hi hi' ?_
      unfold Faces.node
      rw [← (localOf_spec (hsub i hi)).2, ← (localOf_spec (hsub i' hi')).2, he]
    · exact Tracks.zero
  · have : ∀ p : Nat, ¬ ((cell, p) = (c, l)) := fun p h => hcc (by rw [Prod.mk.injEq] at h; exact h.1)
    simp only [this, if_false]
    exact Tracks.zero

end Plato.Bnd
