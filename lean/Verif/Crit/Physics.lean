import Verif.Crit.PhysicsModel
import Verif.Crit.Composite
import Verif.Mech.Vector

/-!
# C51: criteria that are sums over the cells

Closed forms of the loops, for every mesh, partition into domains, number of steps and schedule.
-/

namespace Plato.Crit
open Finset Plato Plato.Mech Filter Topology

/-! ## Worksets as functions of their input -/

section Ws
variable {K R : Type} [Zero K] [Zero R]

/-- The state or control workset of a domain. -/
def gather (mk : Nat → K → R) (npc d : Nat) (c2n : List Nat) (cells : List Nat) (u : List K) : V2 R :=
  ⟨cells.length, npc * d, fun c l => if c < cells.length ∧ l < npc * d then
    mk l (at0 u (cellDof npc d c2n (gcell (some cells) c) l)) else 0⟩

/-- The configuration workset of a domain. -/
def gatherX (mk : Nat → K → R) (npc dim : Nat) (c2n : List Nat) (cells : List Nat) (x : List K) : V3 R :=
  ⟨cells.length, npc, dim, fun c a k => if c < cells.length ∧ a < npc ∧ k < dim then
    mk (a * dim + k) (at0 x (dim * cellNode npc c2n (gcell (some cells) c) a + k)) else 0⟩

omit [Zero K] [Zero R] in
theorem vwr2_frame {y y' : V2 R} {i j : Nat} {a : R} (h : vwr2 y i j a = .ok y') :
    y'.d0 = y.d0 ∧ y'.d1 = y.d1 ∧ ∀ r s, ¬ (r < y.d0 ∧ s < y.d1) → y'.e r s = y.e r s := by
  unfold vwr2 at h
  split_ifs at h with hc
  cases h
  refine ⟨rfl, rfl, fun r s hrs => ?_⟩
  dsimp only
  rw [if_neg]
  rintro ⟨rfl, rfl⟩
  exact hrs hc

omit [Zero K] [Zero R] in
theorem vwr3_frame {y y' : V3 R} {i j k : Nat} {a : R} (h : vwr3 y i j k a = .ok y') :
    y'.d0 = y.d0 ∧ y'.d1 = y.d1 ∧ y'.d2 = y.d2 ∧
      ∀ r s t, ¬ (r < y.d0 ∧ s < y.d1 ∧ t < y.d2) → y'.e r s t = y.e r s t := by
  unfold vwr3 at h
  split_ifs at h with hc
  cases h
  refine ⟨rfl, rfl, rfl, fun r s t hrs => ?_⟩
  dsimp only
  rw [if_neg]
  rintro ⟨rfl, rfl, rfl⟩
  exact hrs hc

/-- `s'` is what `m` returns, if it returns. -/
theorem bind_ok {α β : Type} {m : Res α} {f : α → Res β} {b : β} (h : (m >>= f) = .ok b) :
    ∃ a, m = .ok a ∧ f a = .ok b := by
  cases m with
  | ok a => exact ⟨a, rfl, h⟩
  | err e => cases h
  | ub => cases h

/-- What is true of the state at the start, and preserved by every iteration that returns, is true of
the result. -/
theorem forRange_keeps {σ : Type} (P : σ → Prop) {lo hi : Nat} {s s' : σ} {body : Nat → σ → Res σ}
    (hb : ∀ k s s', P s → body k s = .ok s' → P s') (h0 : P s) (h : forRange lo hi s body = .ok s') :
    P s' := by
  unfold forRange at h
  generalize hi - lo = n at h
  induction n generalizing lo s with
  | zero => cases h; exact h0
  | succ n ih =>
    obtain ⟨m, h1, h2⟩ := bind_ok h
    exact ih (hb _ _ _ h0 h1) h2

theorem parFor_keeps {σ : Type} (P : σ → Prop) {order : List Nat} {s s' : σ} {body : Nat → σ → Res σ}
    (hb : ∀ k s s', P s → body k s = .ok s' → P s') (h0 : P s) (h : parFor order s body = .ok s') :
    P s' := by
  induction order generalizing s with
  | nil => cases h; exact h0
  | cons i is ih =>
    obtain ⟨m, h1, h2⟩ := bind_ok h
    exact ih (hb _ _ _ h0 h1) h2

variable {npc d nc n : Nat} {c2n cells : List Nat} {order : List Nat}

/-- A workset made in a view that is zero beyond its extents, whatever it holds within them. -/
theorem workset_exact {mk : Nat → K → R} {ws : V2 R} {u : List K} (hm : Mesh c2n npc nc n)
    (hd : DomOk (some cells) cells.length nc) (hu : u.length = n * d) (h0 : ws.d0 = cells.length)
    (h1 : ws.d1 = npc * d) (hz : ∀ r s, ¬ (r < ws.d0 ∧ s < ws.d1) → ws.e r s = 0)
    (ho : IsSchedule order cells.length) :
    workset mk npc d c2n (some cells) u order ws = .ok (gather mk npc d c2n cells u) := by
  obtain ⟨w, hw, w0, w1, w2⟩ := workset_ok (mk := mk) hm hd hu h0 h1 ho
  have hk : w.d0 = ws.d0 ∧ w.d1 = ws.d1 ∧ ∀ r s, ¬ (r < ws.d0 ∧ s < ws.d1) → w.e r s = 0 := by
    have hp : ∀ (y y' : V2 R) (i j : Nat) (a : R),
        (y.d0 = ws.d0 ∧ y.d1 = ws.d1 ∧ ∀ r s, ¬ (r < ws.d0 ∧ s < ws.d1) → y.e r s = 0) →
        vwr2 y i j a = .ok y' →
        y'.d0 = ws.d0 ∧ y'.d1 = ws.d1 ∧ ∀ r s, ¬ (r < ws.d0 ∧ s < ws.d1) → y'.e r s = 0 := by
      rintro y y' i j a ⟨a0, a1, a2⟩ h
      obtain ⟨b0, b1, b2⟩ := vwr2_frame h
      refine ⟨b0.trans a0, b1.trans a1, fun r s hrs => ?_⟩
      rw [b2 r s (by rw [a0, a1]; exact hrs), a2 r s hrs]
    unfold workset at hw
    refine parFor_keeps (fun w : V2 R => w.d0 = ws.d0 ∧ w.d1 = ws.d1 ∧
      ∀ r s, ¬ (r < ws.d0 ∧ s < ws.d1) → w.e r s = 0) ?_ ⟨rfl, rfl, hz⟩ hw
    intro c y y' hy h
    obtain ⟨gc, -, h⟩ := bind_ok h
    refine forRange_keeps (fun w : V2 R => w.d0 = ws.d0 ∧ w.d1 = ws.d1 ∧
      ∀ r s, ¬ (r < ws.d0 ∧ s < ws.d1) → w.e r s = 0) ?_ hy h
    intro k y y' hy h
    refine forRange_keeps (fun w : V2 R => w.d0 = ws.d0 ∧ w.d1 = ws.d1 ∧
      ∀ r s, ¬ (r < ws.d0 ∧ s < ws.d1) → w.e r s = 0) ?_ hy h
    intro a y y' hy h
    obtain ⟨p, -, h⟩ := bind_ok h
    obtain ⟨v, -, h⟩ := bind_ok h
    exact hp _ _ _ _ _ hy h
  rw [hw]
  congr 1
  obtain ⟨wd0, wd1, we⟩ := w
  dsimp only at w0 w1 w2 hk
  unfold gather
  rw [V2.mk.injEq]
  refine ⟨w0, w1, ?_⟩
  funext c l
  split_ifs with h
  · exact w2 c l h.1 h.2
  · exact hk.2.2 c l (by rw [h0, h1]; exact h)

/-- The configuration workset. -/
theorem worksetConfig_exact {dim : Nat} {mk : Nat → K → R} {ws : V3 R} {x : List K} (hm : Mesh c2n npc nc n)
    (hd : DomOk (some cells) cells.length nc) (hx : x.length = n * dim) (h0 : ws.d0 = cells.length)
    (h1 : ws.d1 = npc) (h2 : ws.d2 = dim)
    (hz : ∀ r s t, ¬ (r < ws.d0 ∧ s < ws.d1 ∧ t < ws.d2) → ws.e r s t = 0)
    (ho : IsSchedule order cells.length) :
    worksetConfig mk npc dim c2n (some cells) x order ws = .ok (gatherX mk npc dim c2n cells x) := by
  obtain ⟨w, hw, w0, w1, w2, w3⟩ := worksetConfig_ok (mk := mk) hm hd hx h0 h1 h2 ho
  have hk : w.d0 = ws.d0 ∧ w.d1 = ws.d1 ∧ w.d2 = ws.d2 ∧
      ∀ r s t, ¬ (r < ws.d0 ∧ s < ws.d1 ∧ t < ws.d2) → w.e r s t = 0 := by
    have hp : ∀ (y y' : V3 R) (i j k : Nat) (a : R),
        (y.d0 = ws.d0 ∧ y.d1 = ws.d1 ∧ y.d2 = ws.d2 ∧
          ∀ r s t, ¬ (r < ws.d0 ∧ s < ws.d1 ∧ t < ws.d2) → y.e r s t = 0) →
        vwr3 y i j k a = .ok y' →
        y'.d0 = ws.d0 ∧ y'.d1 = ws.d1 ∧ y'.d2 = ws.d2 ∧
          ∀ r s t, ¬ (r < ws.d0 ∧ s < ws.d1 ∧ t < ws.d2) → y'.e r s t = 0 := by
      rintro y y' i j k a ⟨a0, a1, a2, a3⟩ h
      obtain ⟨b0, b1, b2, b3⟩ := vwr3_frame h
      refine ⟨b0.trans a0, b1.trans a1, b2.trans a2, fun r s t hrs => ?_⟩
      rw [b3 r s t (by rw [a0, a1, a2]; exact hrs), a3 r s t hrs]
    unfold worksetConfig at hw
    refine parFor_keeps (fun w : V3 R => w.d0 = ws.d0 ∧ w.d1 = ws.d1 ∧ w.d2 = ws.d2 ∧
      ∀ r s t, ¬ (r < ws.d0 ∧ s < ws.d1 ∧ t < ws.d2) → w.e r s t = 0) ?_ ⟨rfl, rfl, rfl, hz⟩ hw
    intro c y y' hy h
    obtain ⟨gc, -, h⟩ := bind_ok h
    refine forRange_keeps (fun w : V3 R => w.d0 = ws.d0 ∧ w.d1 = ws.d1 ∧ w.d2 = ws.d2 ∧
      ∀ r s t, ¬ (r < ws.d0 ∧ s < ws.d1 ∧ t < ws.d2) → w.e r s t = 0) ?_ hy h
    intro k y y' hy h
    refine forRange_keeps (fun w : V3 R => w.d0 = ws.d0 ∧ w.d1 = ws.d1 ∧ w.d2 = ws.d2 ∧
      ∀ r s t, ¬ (r < ws.d0 ∧ s < ws.d1 ∧ t < ws.d2) → w.e r s t = 0) ?_ hy h
    intro a y y' hy h
    obtain ⟨p, -, h⟩ := bind_ok h
    exact hp _ _ _ _ _ _ hy h
  rw [hw]
  congr 1
  obtain ⟨wd0, wd1, wd2, we⟩ := w
  dsimp only at w0 w1 w2 w3 hk
  unfold gatherX
  rw [V3.mk.injEq]
  refine ⟨w0, w1, w2, ?_⟩
  funext c a k
  split_ifs with h
  · exact w3 c a k h.1 h.2.1 h.2.2
  · exact hk.2.2.2 c a k (by rw [h0, h1, h2]; exact h)

end Ws

/-! ## The loops over domains and steps -/

/-- Schedules of a call with `T` steps that assembles `w` entries for each cell. -/
structure Sched.Ok (M : FeModel) (sc : Sched) (T w : Nat) : Prop where
  ctl : ∀ k, k < M.domains.length → IsSchedule (sc.ctl k) (M.size (M.part k))
  cfg : ∀ k, k < M.domains.length → IsSchedule (sc.cfg k) (M.size (M.part k))
  st : ∀ k t, k < M.domains.length → t < T → IsSchedule (sc.st k t) (M.size (M.part k))
  asm : ∀ k t, k < M.domains.length → t < T → IsSchedule (sc.asm k t) (M.size (M.part k) * w)
  sum : ∀ k t, k < M.domains.length → t < T → IsPartition (sc.sum k t) (M.size (M.part k))

/-- Cells of domain `k`. -/
def domCells (M : FeModel) (k : Nat) : List Nat := M.domains[k]?.getD []

theorem part_eq {M : FeModel} {k : Nat} (hk : k < M.domains.length) : M.part k = some (domCells M k) :=
  if_pos hk

theorem size_eq {M : FeModel} {k : Nat} (hk : k < M.domains.length) :
    M.size (M.part k) = (domCells M k).length := by rw [part_eq hk]; rfl

/-- The cell results of one domain and one state. -/
def cellsOf {R : Type} [Zero R] (M : FeModel) (mkS mkZ mkX : Nat → ℝ → R) (ev : ScalarEvaluator R) (k : Nat)
    (u z x : List ℝ) (dt : ℝ) : Res (List R) :=
  ev k (gather mkS M.npc M.ndof M.c2n (domCells M k) u) (gather mkZ M.npc 1 M.c2n (domCells M k) z)
    (gatherX mkX M.npc M.dim M.c2n (domCells M k) x) (List.replicate (domCells M k).length 0) dt

section Loop
variable {R σ : Type} [Zero R] {M : FeModel} (hM : M.Ok) {mkS mkZ mkX : Nat → ℝ → R}
  {ev : ScalarEvaluator R} {sc : Sched} {states : List (List ℝ)} {z x : List ℝ} {dt : ℝ} {w : Nat}
  (hs : ∀ u ∈ states, u.length = M.nn * M.ndof) (hz : z.length = M.nn) (hx : x.length = M.nn * M.dim)
  (hsc : sc.Ok M states.length w)
  {r : Nat → Nat → List R}
  (hr : ∀ k t (ht : t < states.length), k < M.domains.length →
    cellsOf M mkS mkZ mkX ev k states[t] z x dt = .ok (r k t))
include hM hs hz hx hsc hr

/-- Induction along domains and steps. -/
theorem overSteps_sat {body : List Nat → Nat → Nat → List R → σ → Res σ} {s : σ}
    (P : Nat → Nat → σ → Prop) (h0 : P 0 0 s)
    (hb : ∀ k t s, k < M.domains.length → t < states.length → P k t s →
      (body (domCells M k) k t (r k t) s).Sat (P k (t + 1)))
    (hn : ∀ k s, k < M.domains.length → P k states.length s → P (k + 1) 0 s) :
    (overSteps M mkS mkZ mkX ev sc states z x dt body s).Sat (P M.domains.length 0) := by
  unfold overSteps
  refine forRange_inv (fun k s => P k 0 s) (Nat.zero_le _) h0 ?_
  intro k s _ hk hs0
  have e : rd M.domains k = .ok (domCells M k) := by
    unfold domCells
    rw [List.getElem?_eq_getElem hk]
    simp [rd, hk]
  have hd := hM.domOk k
  rw [part_eq hk] at hd
  have hsz := size_eq hk
  rw [e, Res.ok_bind,
    workset_exact (d := 1) hM.mesh hd (by rw [hz, Nat.mul_one]) rfl (by simp) (fun _ _ _ => rfl)
      (hsz ▸ hsc.ctl k hk), Res.ok_bind,
    worksetConfig_exact hM.mesh hd hx rfl rfl rfl (fun _ _ _ _ => rfl) (hsz ▸ hsc.cfg k hk), Res.ok_bind]
  refine Res.Sat.bind (forRange_inv (fun t (p : V2 R × σ) => (p.1.d0 = (domCells M k).length ∧
    p.1.d1 = M.npc * M.ndof ∧ ∀ a b, ¬ (a < p.1.d0 ∧ b < p.1.d1) → p.1.e a b = 0) ∧ P k t p.2)
    (Nat.zero_le _) ⟨⟨rfl, rfl, fun _ _ _ => rfl⟩, hs0⟩ ?_) ?_
  · rintro t ⟨b, s⟩ - ht ⟨⟨b0, b1, b2⟩, hp⟩
    have e2 : rd states t = .ok states[t] := by simp [rd, ht]
    dsimp only at b0 b1 b2 hp ⊢
    rw [e2, Res.ok_bind, workset_exact hM.mesh hd (hs _ (List.getElem_mem ht)) b0 b1 b2
      (hsz ▸ hsc.st k t hk ht), Res.ok_bind]
    have e3 := hr k t ht hk
    unfold cellsOf at e3
    rw [e3, Res.ok_bind]
    refine Res.Sat.bind (hb k t s hk ht hp) fun s' hs' => ?_
    refine Res.Sat.ok ⟨⟨rfl, rfl, fun a b hab => if_neg hab⟩, hs'⟩
  · rintro ⟨b, s⟩ ⟨-, hp⟩
    exact Res.Sat.ok (hn k s hk hp)

end Loop

section Value
variable {M : FeModel} (hM : M.Ok) {sc : Sched} {states : List (List ℝ)} {z x : List ℝ} {dt : ℝ} {w : Nat}
  (hs : ∀ u ∈ states, u.length = M.nn * M.ndof) (hz : z.length = M.nn) (hx : x.length = M.nn * M.dim)
  (hsc : sc.Ok M states.length w)
include hM hs hz hx hsc

/-- The value: sum over domains, steps and cells, then `postEvaluate`. -/
theorem physicsValue_ok {ev : ScalarEvaluator ℝ} (post : Post) {r : Nat → Nat → List ℝ}
    (hr : ∀ k t (ht : t < states.length), k < M.domains.length →
      cellsOf M plainOf plainOf plainOf ev k states[t] z x dt = .ok (r k t))
    (hl : ∀ k t, k < M.domains.length → t < states.length → (r k t).length = M.size (M.part k)) :
    physicsValue M ev post sc states z x dt = .ok (post.val (∑ k ∈ range M.domains.length,
      ∑ t ∈ range states.length, ∑ c ∈ range (M.size (M.part k)), at0 (r k t) c)) := by
  unfold physicsValue
  have := overSteps_sat hM hs hz hx hsc hr (s := (0 : ℝ))
    (body := fun _ k t r v => do
      let a ← localResultSum (sc.sum k t) r
      pure (v + a))
    (fun k t v => v = ∑ k' ∈ range k, ∑ t ∈ range states.length, ∑ c ∈ range (M.size (M.part k')), at0 (r k' t) c
      + ∑ t' ∈ range t, ∑ c ∈ range (M.size (M.part k)), at0 (r k t') c) (by simp)
    (by
      rintro k t v hk ht rfl
      unfold localResultSum
      rw [parReduce_sum (hsc.sum k t hk ht) (f := fun c => at0 (r k t) c)
        (fun c s hc => by rw [rd_at0 (by rw [hl k t hk ht]; exact hc)]; rfl), Res.ok_bind]
      refine Res.Sat.ok ?_
      rw [sum_range_succ _ t, add_assoc])
    (by
      rintro k v hk rfl
      rw [sum_range_succ, sum_range_zero, add_zero])
  obtain ⟨v, e, rfl⟩ := this
  rw [e, Res.ok_bind, if_neg (by simpa using hM.some_domain)]
  simp

/-- The gradient before `postEvaluate`. -/
theorem gradSteps_ok {d : Nat} {mkS mkZ mkX : Nat → ℝ → Fad} {ev : ScalarEvaluator Fad} (post : Post)
    {r : Nat → Nat → List Fad} (hw : w = M.npc * d)
    (hr : ∀ k t (ht : t < states.length), k < M.domains.length →
      cellsOf M mkS mkZ mkX ev k states[t] z x dt = .ok (r k t))
    (hl : ∀ k t, k < M.domains.length → t < states.length → (r k t).length = M.size (M.part k)) :
    ∃ g : List ℝ, g.length = M.nn * d ∧
      (∀ q, at0 g q = ∑ k ∈ range M.domains.length, ∑ t ∈ range states.length,
        scatteredVec M.npc d M.c2n (M.part k) (M.size (M.part k)) (fun c l => (at0 (r k t) c).dx l) q) ∧
      gradSteps M d mkS mkZ mkX ev post sc states z x dt = post.grad g (∑ k ∈ range M.domains.length,
        ∑ t ∈ range states.length, ∑ c ∈ range (M.size (M.part k)), (at0 (r k t) c).val) := by
  subst hw
  have := overSteps_sat hM hs hz hx hsc hr (s := (List.replicate (d * M.nn) (0 : ℝ), (0 : ℝ)))
    (body := fun cells k t r (p : List ℝ × ℝ) => do
      let g ← assembleResidual M.npc d M.c2n (some cells) cells.length (fadRows r (M.npc * d)) (sc.asm k t) p.1
      let a ← assembleScalarFuncValue (sc.sum k t) r
      pure (g, p.2 + a))
    (fun k t p => p.1.length = M.nn * d ∧
      (∀ q, at0 p.1 q = ∑ k' ∈ range k, ∑ t ∈ range states.length,
        scatteredVec M.npc d M.c2n (M.part k') (M.size (M.part k')) (fun c l => (at0 (r k' t) c).dx l) q +
        ∑ t' ∈ range t,
          scatteredVec M.npc d M.c2n (M.part k) (M.size (M.part k)) (fun c l => (at0 (r k t') c).dx l) q) ∧
      p.2 = ∑ k' ∈ range k, ∑ t ∈ range states.length, ∑ c ∈ range (M.size (M.part k')), (at0 (r k' t) c).val
      + ∑ t' ∈ range t, ∑ c ∈ range (M.size (M.part k)), (at0 (r k t') c).val)
    (by
      refine ⟨by rw [List.length_replicate, Nat.mul_comm], fun q => ?_, by simp⟩
      simp only [range_zero, sum_empty, at0, List.getElem?_replicate, add_zero]
      split_ifs <;> rfl)
    (by
      rintro k t ⟨g, v⟩ hk ht ⟨h1, h2, h3⟩
      dsimp only at h1 h2 h3 ⊢
      have hd := hM.domOk k
      rw [part_eq hk] at hd
      have hsz := size_eq hk
      refine Res.Sat.bind (C08_assembleResidual hM.mesh hd h1
        (by show _ ≤ (r k t).length; rw [hl k t hk ht, hsz]) le_rfl (hsz ▸ hsc.asm k t hk ht)) ?_
      rintro g' ⟨e1, e2⟩
      unfold assembleScalarFuncValue
      rw [parReduce_sum (hsc.sum k t hk ht) (f := fun c => (at0 (r k t) c).val)
        (fun c s hc => by rw [rd_at0 (by rw [hl k t hk ht]; exact hc)]; rfl), Res.ok_bind]
      refine Res.Sat.ok ⟨e1, fun q => ?_, ?_⟩
      · dsimp only
        rw [e2 q, h2 q, sum_range_succ _ t, add_assoc, hsz, part_eq hk]
        rfl
      · dsimp only
        rw [h3, sum_range_succ _ t, add_assoc])
    (by
      rintro k ⟨g, v⟩ hk ⟨h1, h2, h3⟩
      refine ⟨h1, fun q => ?_, ?_⟩
      · dsimp only at h2 ⊢
        rw [h2 q, sum_range_succ, sum_range_zero, add_zero]
      · dsimp only at h3 ⊢
        rw [h3, sum_range_succ, sum_range_zero, add_zero])
  obtain ⟨⟨g, v⟩, e, h1, h2, h3⟩ := this
  dsimp only at h1 h2 h3
  refine ⟨g, h1, fun q => by rw [h2 q]; simp, ?_⟩
  unfold gradSteps
  rw [e, Res.ok_bind, if_neg (by simpa using hM.some_domain), h3]
  simp

end Value

/-! ## Derivatives -/

/-- The evaluator with automatic differentiation values `evF` and the evaluator with numbers `evR`
compute the same functions at `x`: whenever the entries of the worksets of a cell track functions of
`y`, with any independent variables of that cell, so does the result of the cell.  `good` is what the
evaluator needs from state, control and configuration of each cell. -/
def CritTracks {E : Type} [NormedAddCommGroup E] [NormedSpace ℝ E] (M : FeModel) (evR : ScalarEvaluator ℝ)
    (evF : ScalarEvaluator Fad) (good : (Nat → ℝ) → (Nat → ℝ) → (Nat → Nat → ℝ) → Prop) (dt : ℝ) (x : E) :
    Prop :=
  ∀ (k N : Nat) (L : Nat → Nat → E →L[ℝ] ℝ) (sF zF : V2 Fad) (xF : V3 Fad) (sR zR : E → V2 ℝ)
    (xR : E → V3 ℝ), k < M.domains.length → PartOk M k sF zF xF → (∀ y, PartOk M k (sR y) (zR y) (xR y)) →
    (∀ c l, c < M.size (M.part k) → l < M.npc * M.ndof →
      Tracks (L c) N x (sF.e c l) fun y => (sR y).e c l) →
    (∀ c l, c < M.size (M.part k) → l < M.npc → Tracks (L c) N x (zF.e c l) fun y => (zR y).e c l) →
    (∀ c a i, c < M.size (M.part k) → a < M.npc → i < M.dim →
      Tracks (L c) N x (xF.e c a i) fun y => (xR y).e c a i) →
    (∀ c, c < M.size (M.part k) → good ((sR x).e c) ((zR x).e c) ((xR x).e c)) →
    ∃ (rF : List Fad) (rR : E → List ℝ),
      evF k sF zF xF (List.replicate (M.size (M.part k)) 0) dt = .ok rF ∧
      (∀ y, evR k (sR y) (zR y) (xR y) (List.replicate (M.size (M.part k)) 0) dt = .ok (rR y)) ∧
      rF.length = M.size (M.part k) ∧ (∀ y, (rR y).length = M.size (M.part k)) ∧
      ∀ c, c < M.size (M.part k) → Tracks (L c) N x (at0 rF c) fun y => at0 (rR y) c

/-- State of a global cell. -/
def cellS (M : FeModel) (u : List ℝ) (cell : Nat) (l : Nat) : ℝ := at0 u (cellDof M.npc M.ndof M.c2n cell l)

/-- What `good` means does not depend on entries that do not exist. -/
def CritLocal (M : FeModel) (good : (Nat → ℝ) → (Nat → ℝ) → (Nat → Nat → ℝ) → Prop) : Prop :=
  ∀ U U' Z Z' X X', (∀ l, l < M.npc * M.ndof → U l = U' l) → (∀ a, a < M.npc → Z a = Z' a) →
    (∀ a k, a < M.npc → k < M.dim → X a k = X' a k) → good U Z X → good U' Z' X'

theorem scatteredVec_smul {V : Type} [AddCommGroup V] [Module ℝ V] {npc d nc n : Nat} {c2n : List Nat}
    {dom : Option (List Nat)} {nCells : Nat} (hm : Mesh c2n npc nc n) (hd : DomOk dom nCells nc)
    (w : Nat → Nat → ℝ) (p : Nat → V) :
    ∑ q ∈ range (n * d), scatteredVec npc d c2n dom nCells w q • p q =
      ∑ c ∈ range nCells, ∑ l ∈ range (npc * d), w c l • p (cellDof npc d c2n (gcell dom c) l) := by
  unfold scatteredVec
  simp only [sum_smul]
  rw [sum_comm]
  refine sum_congr rfl fun c hc => ?_
  rw [sum_comm]
  refine sum_congr rfl fun l hl => ?_
  have hlt := hm.dof_lt (hd.1 c (mem_range.1 hc)) (mem_range.1 hl)
  rw [sum_eq_single_of_mem _ (mem_range.2 hlt)]
  · rw [if_pos rfl]
  · intro j _ hne
    rw [if_neg (fun h => hne h.symm), zero_smul]

section Deriv
variable {M : FeModel} (hM : M.Ok) {evR : ScalarEvaluator ℝ} {evF : ScalarEvaluator Fad}
  {good : (Nat → ℝ) → (Nat → ℝ) → (Nat → Nat → ℝ) → Prop} (hg : CritLocal M good) {dt : ℝ}

section Cells
variable {E : Type} [NormedAddCommGroup E] [NormedSpace ℝ E] {x : E}
  (hev : CritTracks M evR evF good dt x) {uR zR xR : E → List ℝ}
  (hgood : ∀ c, c < M.nc → good (cellS M (uR x) c) (M.cellZ (zR x) c) (M.cellX (xR x) c))
  {mkS mkZ mkX : Nat → ℝ → Fad} {N : Nat} {L : Nat → Nat → E →L[ℝ] ℝ}
  (hS : ∀ c l, c < M.nc → l < M.npc * M.ndof → Tracks (L c) N x
    (mkS l (cellS M (uR x) c l)) fun y => cellS M (uR y) c l)
  (hZ : ∀ c l, c < M.nc → l < M.npc → Tracks (L c) N x (mkZ l (M.cellZ (zR x) c l))
    fun y => M.cellZ (zR y) c l)
  (hX : ∀ c a k, c < M.nc → a < M.npc → k < M.dim → Tracks (L c) N x
    (mkX (a * M.dim + k) (M.cellX (xR x) c a k)) fun y => M.cellX (xR y) c a k)
include hM hg hev hgood hS hZ hX

/-- One domain, one state. -/
theorem cellsOf_tracks {k : Nat} (hk : k < M.domains.length) :
    ∃ (rF : List Fad) (rR : E → List ℝ),
      cellsOf M mkS mkZ mkX evF k (uR x) (zR x) (xR x) dt = .ok rF ∧
      (∀ y, cellsOf M plainOf plainOf plainOf evR k (uR y) (zR y) (xR y) dt = .ok (rR y)) ∧
      rF.length = M.size (M.part k) ∧ (∀ y, (rR y).length = M.size (M.part k)) ∧
      ∀ c, c < M.size (M.part k) →
        Tracks (L (gcell (M.part k) c)) N x (at0 rF c) fun y => at0 (rR y) c := by
  have hd := hM.domOk k
  have hsz := size_eq hk
  have eS : ∀ {R : Type} [Zero R] (mk : Nat → ℝ → R) (u : List ℝ) c l, c < M.size (M.part k) → l < M.npc * M.ndof →
      (gather mk M.npc M.ndof M.c2n (domCells M k) u).e c l = mk l (cellS M u (gcell (M.part k) c) l) := by
    intro R _ mk u c l hc hl
    rw [part_eq hk]
    exact if_pos ⟨hsz ▸ hc, hl⟩
  have eZ : ∀ {R : Type} [Zero R] (mk : Nat → ℝ → R) (z : List ℝ) c l, c < M.size (M.part k) → l < M.npc →
      (gather mk M.npc 1 M.c2n (domCells M k) z).e c l = mk l (M.cellZ z (gcell (M.part k) c) l) := by
    intro R _ mk z c l hc hl
    rw [part_eq hk]
    unfold FeModel.cellZ
    rw [← cellDof_one]
    exact if_pos ⟨hsz ▸ hc, by rw [Nat.mul_one]; exact hl⟩
  have eX : ∀ {R : Type} [Zero R] (mk : Nat → ℝ → R) (x : List ℝ) c a i, c < M.size (M.part k) → a < M.npc →
      i < M.dim → (gatherX mk M.npc M.dim M.c2n (domCells M k) x).e c a i =
        mk (a * M.dim + i) (M.cellX x (gcell (M.part k) c) a i) := by
    intro R _ mk x c a i hc ha hi
    rw [part_eq hk]
    exact if_pos ⟨hsz ▸ hc, ha, hi⟩
  have hP : ∀ {R : Type} [Zero R] (m1 m2 m3 : Nat → ℝ → R) (u z x : List ℝ), PartOk M k
      (gather m1 M.npc M.ndof M.c2n (domCells M k) u) (gather m2 M.npc 1 M.c2n (domCells M k) z)
      (gatherX m3 M.npc M.dim M.c2n (domCells M k) x) := by
    intro R _ m1 m2 m3 u z x
    exact ⟨hsz.symm, rfl, hsz.symm, Nat.mul_one _, hsz.symm, rfl, rfl⟩
  obtain ⟨rF, rR, h1, h2, h3, h4, h5⟩ := hev k N (fun c => L (gcell (M.part k) c))
    (gather mkS M.npc M.ndof M.c2n (domCells M k) (uR x)) (gather mkZ M.npc 1 M.c2n (domCells M k) (zR x))
    (gatherX mkX M.npc M.dim M.c2n (domCells M k) (xR x))
    (fun y => gather plainOf M.npc M.ndof M.c2n (domCells M k) (uR y))
    (fun y => gather plainOf M.npc 1 M.c2n (domCells M k) (zR y))
    (fun y => gatherX plainOf M.npc M.dim M.c2n (domCells M k) (xR y)) hk (hP _ _ _ _ _ _)
    (fun y => hP _ _ _ _ _ _)
    (fun c l hc hl => by
      rw [eS _ _ c l hc hl]
      exact (hS _ l (hd.1 c hc) hl).congr (funext fun y => (eS plainOf (uR y) c l hc hl).symm))
    (fun c l hc hl => by
      rw [eZ _ _ c l hc hl]
      exact (hZ _ l (hd.1 c hc) hl).congr (funext fun y => (eZ plainOf (zR y) c l hc hl).symm))
    (fun c a i hc ha hi => by
      rw [eX _ _ c a i hc ha hi]
      exact (hX _ a i (hd.1 c hc) ha hi).congr (funext fun y => (eX plainOf (xR y) c a i hc ha hi).symm))
    (fun c hc => hg _ _ _ _ _ _ (fun l hl => (eS plainOf (uR x) c l hc hl).symm)
      (fun a ha => (eZ plainOf (zR x) c a hc ha).symm)
      (fun a i ha hi => (eX plainOf (xR x) c a i hc ha hi).symm) (hgood _ (hd.1 c hc)))
  refine ⟨rF, rR, ?_, fun y => ?_, h3, h4, h5⟩
  · unfold cellsOf
    rw [← hsz]
    exact h1
  · unfold cellsOf
    rw [← hsz]
    exact h2 y

end Cells

/-- `postEvaluate` at the sum `v`: the value is replaced by a differentiable function of it, and the
gradient is multiplied by the derivative of that function. -/
def Post.Ok (post : Post) (m : Nat) (v : ℝ) : Prop :=
  ∃ c, HasDerivAt post.val c v ∧ ∀ g : List ℝ, g.length = m → ∃ g', post.grad g v = .ok g' ∧ g'.length = m ∧
    ∀ q, q < m → at0 g' q = c * at0 g q

theorem Post.none_ok (m : Nat) (v : ℝ) : Post.none.Ok m v :=
  ⟨1, hasDerivAt_id v, fun g hg => ⟨g, rfl, hg, fun _ _ => (one_mul _).symm⟩⟩

include hM in
/-- Sum over the cells of one domain and one state. -/
theorem cells_deriv (hg : CritLocal M good) {m d : Nat} (hmd : m = M.nn * d) {p : Fin m → ℝ}
    (hev : CritTracks M evR evF good dt p) {uR zR xR : (Fin m → ℝ) → List ℝ}
    (hgood : ∀ c, c < M.nc → good (cellS M (uR p) c) (M.cellZ (zR p) c) (M.cellX (xR p) c))
    {mkS mkZ mkX : Nat → ℝ → Fad}
    (hS : ∀ c l, c < M.nc → l < M.npc * M.ndof → Tracks (fun l => coord m (cellDof M.npc d M.c2n c l))
      (M.npc * d) p (mkS l (cellS M (uR p) c l)) fun y => cellS M (uR y) c l)
    (hZ : ∀ c l, c < M.nc → l < M.npc → Tracks (fun l => coord m (cellDof M.npc d M.c2n c l))
      (M.npc * d) p (mkZ l (M.cellZ (zR p) c l)) fun y => M.cellZ (zR y) c l)
    (hX : ∀ c a k, c < M.nc → a < M.npc → k < M.dim → Tracks (fun l => coord m (cellDof M.npc d M.c2n c l))
      (M.npc * d) p (mkX (a * M.dim + k) (M.cellX (xR p) c a k)) fun y => M.cellX (xR y) c a k)
    {k : Nat} (hk : k < M.domains.length) :
    ∃ (rF : List Fad) (rR : (Fin m → ℝ) → List ℝ),
      cellsOf M mkS mkZ mkX evF k (uR p) (zR p) (xR p) dt = .ok rF ∧
      (∀ y, cellsOf M plainOf plainOf plainOf evR k (uR y) (zR y) (xR y) dt = .ok (rR y)) ∧
      rF.length = M.size (M.part k) ∧ (∀ y, (rR y).length = M.size (M.part k)) ∧
      (∀ c, c < M.size (M.part k) → (at0 rF c).val = at0 (rR p) c) ∧
      HasFDerivAt (fun y => ∑ c ∈ range (M.size (M.part k)), at0 (rR y) c)
        (lin m (scatteredVec M.npc d M.c2n (M.part k) (M.size (M.part k)) fun c l => (at0 rF c).dx l)) p := by
  obtain ⟨rF, rR, h1, h2, h3, h4, h5⟩ := cellsOf_tracks hM hg hev
    (L := fun c l => coord m (cellDof M.npc d M.c2n c l)) hgood hS hZ hX hk
  refine ⟨rF, rR, h1, h2, h3, h4, fun c hc => (h5 c hc).val, ?_⟩
  refine (HasFDerivAt.fun_sum fun c hc => (h5 c (mem_range.1 hc)).deriv).congr_fderiv ?_
  subst hmd
  rw [← lin_coord]
  exact (scatteredVec_smul hM.mesh (hM.domOk k) _ _).symm

/-- The chain rule of `postEvaluate`. -/
theorem Post.reports {post : Post} {m : Nat} {p : Fin m → ℝ} {f : (Fin m → ℝ) → ℝ} {g : List ℝ}
    (hl : g.length = m) (hf : HasFDerivAt f (lin m (at0 g)) p) (hp : post.Ok m (f p)) :
    ∃ g', post.grad g (f p) = .ok g' ∧ g'.length = m ∧
      HasFDerivAt (fun y => post.val (f y)) (lin m (at0 g')) p := by
  obtain ⟨c, hc, hgr⟩ := hp
  obtain ⟨g', e, hl', hq⟩ := hgr g hl
  refine ⟨g', e, hl', (hc.comp_hasFDerivAt p hf).congr_fderiv ?_⟩
  ext y
  simp only [_root_.smul_apply, lin_apply, smul_eq_mul, mul_sum]
  exact sum_congr rfl fun j _ => by rw [hq j j.2, mul_assoc]

include hM hg in
/-- Gradients with respect to control or configuration: all steps contribute. -/
theorem reports_steps {m d : Nat} (hmd : m = M.nn * d) {p : Fin m → ℝ}
    (hev : CritTracks M evR evF good dt p) {S : List (List ℝ)} {zR xR : (Fin m → ℝ) → List ℝ}
    (hS : ∀ u ∈ S, u.length = M.nn * M.ndof) (hz : ∀ y, (zR y).length = M.nn)
    (hx : ∀ y, (xR y).length = M.nn * M.dim)
    (hgood : ∀ u ∈ S, ∀ c, c < M.nc → good (cellS M u c) (M.cellZ (zR p) c) (M.cellX (xR p) c))
    {mkZ mkX : Nat → ℝ → Fad}
    (hZ : ∀ c l, c < M.nc → l < M.npc → Tracks (fun l => coord m (cellDof M.npc d M.c2n c l))
      (M.npc * d) p (mkZ l (M.cellZ (zR p) c l)) fun y => M.cellZ (zR y) c l)
    (hX : ∀ c a k, c < M.nc → a < M.npc → k < M.dim → Tracks (fun l => coord m (cellDof M.npc d M.c2n c l))
      (M.npc * d) p (mkX (a * M.dim + k) (M.cellX (xR p) c a k)) fun y => M.cellX (xR y) c a k)
    {post : Post} {sv sg : Sched} {w : Nat} (hsv : sv.Ok M S.length w) (hsg : sg.Ok M S.length (M.npc * d))
    (hp : ∀ v, physicsValue M evR Post.none sv S (zR p) (xR p) dt = .ok v → post.Ok m v) :
    ∃ (f : (Fin m → ℝ) → ℝ) (g : List ℝ),
      (∀ y, physicsValue M evR post sv S (zR y) (xR y) dt = .ok (f y)) ∧
      gradSteps M d constOf mkZ mkX evF post sg S (zR p) (xR p) dt = .ok g ∧ g.length = m ∧
      HasFDerivAt f (lin m (at0 g)) p := by
  have hc : ∀ k t, ∃ (rF : List Fad) (rR : (Fin m → ℝ) → List ℝ), ∀ (ht : t < S.length), k < M.domains.length →
      cellsOf M constOf mkZ mkX evF k S[t] (zR p) (xR p) dt = .ok rF ∧
      (∀ y, cellsOf M plainOf plainOf plainOf evR k S[t] (zR y) (xR y) dt = .ok (rR y)) ∧
      rF.length = M.size (M.part k) ∧ (∀ y, (rR y).length = M.size (M.part k)) ∧
      (∀ c, c < M.size (M.part k) → (at0 rF c).val = at0 (rR p) c) ∧
      HasFDerivAt (fun y => ∑ c ∈ range (M.size (M.part k)), at0 (rR y) c)
        (lin m (scatteredVec M.npc d M.c2n (M.part k) (M.size (M.part k)) fun c l => (at0 rF c).dx l)) p := by
    intro k t
    by_cases h : t < S.length ∧ k < M.domains.length
    · obtain ⟨rF, rR, h'⟩ := cells_deriv hM hg hmd hev (uR := fun _ => S[t]) (mkS := constOf)
        (hgood _ (List.getElem_mem h.1)) (fun c l _ _ => Tracks.const _) hZ hX h.2
      exact ⟨rF, rR, fun _ _ => h'⟩
    · exact ⟨[], fun _ => [], fun h1 h2 => absurd ⟨h1, h2⟩ h⟩
  choose rF rR hc using hc
  have hv := fun y post => physicsValue_ok hM hS (hz y) (hx y) hsv (dt := dt) (ev := evR) post
    (r := fun k t => rR k t y) (fun k t ht hk => (hc k t ht hk).2.1 y)
    (fun k t hk ht => (hc k t ht hk).2.2.2.1 y)
  obtain ⟨g, hl, hq, hgr⟩ := gradSteps_ok hM hS (hz p) (hx p) hsg (d := d) (dt := dt) (ev := evF) post (r := rF) rfl
    (fun k t ht hk => (hc k t ht hk).1) (fun k t hk ht => (hc k t ht hk).2.2.1)
  have hval : ∑ k ∈ range M.domains.length, ∑ t ∈ range S.length, ∑ c ∈ range (M.size (M.part k)),
      (at0 (rF k t) c).val = ∑ k ∈ range M.domains.length, ∑ t ∈ range S.length,
        ∑ c ∈ range (M.size (M.part k)), at0 (rR k t p) c :=
    sum_congr rfl fun k hk => sum_congr rfl fun t ht => sum_congr rfl fun c hc' =>
      (hc k t (mem_range.1 ht) (mem_range.1 hk)).2.2.2.2.1 c (mem_range.1 hc')
  have hf : HasFDerivAt (fun y => ∑ k ∈ range M.domains.length, ∑ t ∈ range S.length,
      ∑ c ∈ range (M.size (M.part k)), at0 (rR k t y) c) (lin m (at0 g)) p := by
    refine (HasFDerivAt.fun_sum fun k hk => HasFDerivAt.fun_sum fun t ht =>
      (hc k t (mem_range.1 ht) (mem_range.1 hk)).2.2.2.2.2).congr_fderiv ?_
    rw [← lin_coord (at0 g)]
    simp only [hq, sum_smul]
    symm
    rw [sum_comm]
    refine sum_congr rfl fun k _ => ?_
    rw [sum_comm]
    exact sum_congr rfl fun t _ => lin_coord _
  obtain ⟨g', e, hl', hd⟩ := Post.reports (post := post) (hl.trans hmd.symm) hf (hp _ (hv p Post.none))
  exact ⟨_, g', fun y => hv y post, by rw [hgr, hval]; exact e, hl', hd⟩

include hM hg in
/-- Gradient with respect to the state of step `j`: only that step is evaluated. -/
theorem reports_state {p : Fin (M.nn * M.ndof) → ℝ} (hev : CritTracks M evR evF good dt p)
    {S : List (List ℝ)} {z x : List ℝ} {j : Nat} (hj : S[j]? = some (List.ofFn p))
    (hS : ∀ u ∈ S, u.length = M.nn * M.ndof) (hz : z.length = M.nn) (hx : x.length = M.nn * M.dim)
    (hgood : ∀ u ∈ S, ∀ c, c < M.nc → good (cellS M u c) (M.cellZ z c) (M.cellX x c))
    {post : Post} {sv sg : Sched} {w : Nat} (hsv : sv.Ok M S.length w) (hsg : sg.Ok M 1 (M.npc * M.ndof))
    (hone : S.length = 1 ∨ post = Post.none)
    (hp : ∀ v, physicsValue M evR Post.none sv S z x dt = .ok v → post.Ok (M.nn * M.ndof) v) :
    ∃ (f : (Fin (M.nn * M.ndof) → ℝ) → ℝ) (g : List ℝ),
      (∀ y, physicsValue M evR post sv (S.set j (List.ofFn y)) z x dt = .ok (f y)) ∧
      gradSteps M M.ndof seedOf constOf constOf evF post sg [List.ofFn p] z x dt = .ok g ∧
      g.length = M.nn * M.ndof ∧ HasFDerivAt f (lin (M.nn * M.ndof) (at0 g)) p := by
  obtain ⟨hjl, hjp⟩ := List.getElem?_eq_some_iff.1 hj
  have hmem : List.ofFn p ∈ S := hjp ▸ List.getElem_mem hjl
  -- the other steps
  have hoth : ∀ k t, ∃ r : List ℝ, ∀ (ht : t < S.length), k < M.domains.length →
      cellsOf M plainOf plainOf plainOf evR k S[t] z x dt = .ok r ∧ r.length = M.size (M.part k) := by
    intro k t
    by_cases h : t < S.length ∧ k < M.domains.length
    · obtain ⟨rF, rR, h1, h2, h3, h4, -⟩ := cells_deriv hM hg rfl hev (uR := fun _ => S[t]) (zR := fun _ => z)
        (xR := fun _ => x) (mkS := constOf) (mkZ := constOf) (mkX := constOf) (hgood _ (List.getElem_mem h.1))
        (fun c l _ _ => Tracks.const _) (fun c l _ _ => Tracks.const _) (fun c a k _ _ _ => Tracks.const _) h.2
      exact ⟨rR p, fun _ _ => ⟨h2 p, h4 p⟩⟩
    · exact ⟨[], fun h1 h2 => absurd ⟨h1, h2⟩ h⟩
  choose ro hoth using hoth
  have hc : ∀ k, ∃ (rF : List Fad) (rR : (Fin (M.nn * M.ndof) → ℝ) → List ℝ), k < M.domains.length →
      cellsOf M seedOf constOf constOf evF k (List.ofFn p) z x dt = .ok rF ∧
      (∀ y, cellsOf M plainOf plainOf plainOf evR k (List.ofFn y) z x dt = .ok (rR y)) ∧
      rF.length = M.size (M.part k) ∧ (∀ y, (rR y).length = M.size (M.part k)) ∧
      (∀ c, c < M.size (M.part k) → (at0 rF c).val = at0 (rR p) c) ∧
      HasFDerivAt (fun y => ∑ c ∈ range (M.size (M.part k)), at0 (rR y) c)
        (lin _ (scatteredVec M.npc M.ndof M.c2n (M.part k) (M.size (M.part k))
          fun c l => (at0 rF c).dx l)) p := by
    intro k
    by_cases h : k < M.domains.length
    · obtain ⟨rF, rR, h'⟩ := cells_deriv hM hg rfl hev (uR := fun y => List.ofFn y) (zR := fun _ => z)
        (xR := fun _ => x) (mkS := seedOf) (mkZ := constOf) (mkX := constOf) (hgood _ hmem)
        (fun c l hc hl => by
          simp only [cellS, at0_ofFn]
          exact Tracks.seed (L := fun l => coord _ (cellDof M.npc M.ndof M.c2n c l)) hl)
        (fun c l _ _ => Tracks.const _) (fun c a k _ _ _ => Tracks.const _) h
      exact ⟨rF, rR, fun _ => h'⟩
    · exact ⟨[], fun _ => [], fun h1 => absurd h1 h⟩
  choose rF rR hc using hc
  have hv := fun y post => physicsValue_ok hM (states := S.set j (List.ofFn y)) (by
      intro u hu
      rcases List.mem_or_eq_of_mem_set hu with h | rfl
      · exact hS u h
      · exact List.length_ofFn) hz hx (by rw [List.length_set]; exact hsv) (dt := dt) (ev := evR) post
    (r := fun k t => if t = j then rR k y else ro k t) (fun k t ht hk => by
      split_ifs with h
      · subst h
        rw [List.getElem_set_self]
        exact (hc k hk).2.1 y
      · rw [List.getElem_set_ne (fun h' => h h'.symm)]
        exact (hoth k t (by simpa using ht) hk).1)
    (fun k t hk ht => by
      split_ifs with h
      · exact (hc k hk).2.2.2.1 y
      · exact (hoth k t (by simpa using ht) hk).2)
  simp only [List.length_set] at hv
  obtain ⟨g, hl, hq, hgr⟩ := gradSteps_ok hM (states := [List.ofFn p]) (fun u hu => by
      rw [List.mem_singleton.1 hu]; exact List.length_ofFn) hz hx hsg (d := M.ndof) (dt := dt) (ev := evF) post
    (r := fun k _ => rF k) rfl
    (fun k t ht hk => by
      have : t = 0 := by simpa using ht
      subst this
      exact (hc k hk).1) (fun k t hk _ => (hc k hk).2.2.1)
  simp only [List.length_singleton, range_one, sum_singleton] at hq hgr
  have hf : HasFDerivAt (fun y => ∑ k ∈ range M.domains.length, ∑ t ∈ range S.length,
      ∑ c ∈ range (M.size (M.part k)), at0 (if t = j then rR k y else ro k t) c)
      (lin (M.nn * M.ndof) (at0 g)) p := by
    have : HasFDerivAt (fun y => ∑ k ∈ range M.domains.length, ∑ t ∈ range S.length,
        ∑ c ∈ range (M.size (M.part k)), at0 (if t = j then rR k y else ro k t) c)
        (∑ k ∈ range M.domains.length, ∑ t ∈ range S.length, if t = j then
          lin (M.nn * M.ndof) (scatteredVec M.npc M.ndof M.c2n (M.part k) (M.size (M.part k))
          fun c l => (at0 (rF k) c).dx l) else 0) p := by
      refine HasFDerivAt.fun_sum fun k hk => HasFDerivAt.fun_sum fun t _ => ?_
      split_ifs with h
      · exact (hc k (mem_range.1 hk)).2.2.2.2.2
      · exact hasFDerivAt_const _ _
    refine this.congr_fderiv ?_
    rw [← lin_coord (at0 g)]
    simp only [hq, sum_smul]
    symm
    rw [sum_comm]
    refine sum_congr rfl fun k _ => ?_
    rw [sum_ite_eq' (range S.length) j, if_pos (mem_range.2 hjl)]
    exact lin_coord _
  have hpS : S.set j (List.ofFn p) = S := set_self hj
  have hvp := hv p Post.none
  rw [hpS] at hvp
  rcases hone with h1 | rfl
  · obtain ⟨g', e, hl', hd⟩ := Post.reports (post := post) hl hf (hp _ hvp)
    refine ⟨_, g', fun y => hv y post, ?_, hl', hd⟩
    rw [hgr, ← e]
    congr 1
    refine sum_congr rfl fun k hk => ?_
    have hj0 : j = 0 := by omega
    subst hj0
    simp only [h1, range_one, sum_singleton, if_true]
    exact sum_congr rfl fun c hc' => (hc k (mem_range.1 hk)).2.2.2.2.1 c (mem_range.1 hc')
  · exact ⟨_, g, fun y => hv y Post.none, by rw [hgr]; rfl, hl, hf⟩

/-! ## C51 -/

variable {post : Post} {evX evU evZ : ScalarEvaluator Fad} {sv sx su sz : Sched} {wv : Nat} {S : List (List ℝ)}

include hM hg in
/-- **C51, configuration.** -/
theorem C51_gradient_x {z : List ℝ} (hz : z.length = M.nn) {x : Fin (M.nn * M.dim) → ℝ}
    (hS : ∀ u ∈ S, u.length = M.nn * M.ndof) (hev : CritTracks M evR evX good dt x)
    (hgood : ∀ u ∈ S, ∀ c, c < M.nc → good (cellS M u c) (M.cellZ z c) (M.cellX (List.ofFn x) c))
    (hsv : sv.Ok M S.length wv) (hsx : sx.Ok M S.length (M.npc * M.dim))
    (hp : ∀ v, physicsValue M evR Post.none sv S z (List.ofFn x) dt = .ok v → post.Ok (M.nn * M.dim) v) :
    Reports (M.nn * M.dim) (fun y => (physicsCriterion M evR evX evU evZ post sv sx su sz).value S z y dt)
      ((physicsCriterion M evR evX evU evZ post sv sx su sz).gradX S z (List.ofFn x) dt) x := by
  obtain ⟨f, g, h1, h2, h3, h4⟩ := reports_steps hM hg rfl hev (zR := fun _ => z) (xR := fun y => List.ofFn y)
    hS (fun _ => hz) (fun _ => List.length_ofFn) hgood (mkZ := constOf) (mkX := seedOf)
    (fun c l _ _ => Tracks.const _)
    (fun c a k hc ha hk => by
      have e : M.dim * cellNode M.npc M.c2n c a + k = cellDof M.npc M.dim M.c2n c (a * M.dim + k) := by
        unfold cellDof
        rw [Nat.mul_comm a, div_block hk, Nat.mul_add_mod, Nat.mod_eq_of_lt hk]
      simp only [FeModel.cellX, at0_ofFn, e]
      exact Tracks.seed (L := fun l => coord _ (cellDof M.npc M.dim M.c2n c l))
        (by rw [Nat.mul_comm a]; exact block_lt hk ha)) hsv hsx hp
  exact ⟨f, g, Filter.Eventually.of_forall h1, h2, h3, h4⟩

include hM hg in
/-- **C51, control.** -/
theorem C51_gradient_z {z : Fin M.nn → ℝ} {x : List ℝ} (hx : x.length = M.nn * M.dim)
    (hS : ∀ u ∈ S, u.length = M.nn * M.ndof) (hev : CritTracks M evR evZ good dt z)
    (hgood : ∀ u ∈ S, ∀ c, c < M.nc → good (cellS M u c) (M.cellZ (List.ofFn z) c) (M.cellX x c))
    (hsv : sv.Ok M S.length wv) (hsz : sz.Ok M S.length (M.npc * 1))
    (hp : ∀ v, physicsValue M evR Post.none sv S (List.ofFn z) x dt = .ok v → post.Ok M.nn v) :
    Reports M.nn (fun y => (physicsCriterion M evR evX evU evZ post sv sx su sz).value S y x dt)
      ((physicsCriterion M evR evX evU evZ post sv sx su sz).gradZ S (List.ofFn z) x dt) z := by
  obtain ⟨f, g, h1, h2, h3, h4⟩ := reports_steps hM hg (Nat.mul_one _).symm hev (zR := fun y => List.ofFn y)
    (xR := fun _ => x) hS (fun _ => List.length_ofFn) (fun _ => hx) hgood (mkZ := seedOf) (mkX := constOf)
    (fun c l hc hl => by
      simp only [FeModel.cellZ, at0_ofFn, ← cellDof_one M.npc M.c2n c l]
      exact Tracks.seed (L := fun l => coord _ (cellDof M.npc 1 M.c2n c l)) (by omega))
    (fun c a k _ _ _ => Tracks.const _) hsv hsz hp
  exact ⟨f, g, Filter.Eventually.of_forall h1, h2, h3, h4⟩

include hM hg in
/-- **C51, state.**  With more than one step this holds for criteria without `postEvaluate`. -/
theorem C51_gradient_u_partial {u : Fin (M.nn * M.ndof) → ℝ} {z x : List ℝ} (hz : z.length = M.nn)
    (hx : x.length = M.nn * M.dim) {j : Nat} (hj : S[j]? = some (List.ofFn u))
    (hS : ∀ u ∈ S, u.length = M.nn * M.ndof) (hev : CritTracks M evR evU good dt u)
    (hgood : ∀ u ∈ S, ∀ c, c < M.nc → good (cellS M u c) (M.cellZ z c) (M.cellX x c))
    (hsv : sv.Ok M S.length wv) (hsu : su.Ok M 1 (M.npc * M.ndof)) (hone : S.length = 1 ∨ post = Post.none)
    (hp : ∀ v, physicsValue M evR Post.none sv S z x dt = .ok v → post.Ok (M.nn * M.ndof) v) :
    Reports (M.nn * M.ndof) (fun y => (physicsCriterion M evR evX evU evZ post sv sx su sz).value (S.set j y) z x dt)
      ((physicsCriterion M evR evX evU evZ post sv sx su sz).gradU S z x j dt) u := by
  obtain ⟨f, g, h1, h2, h3, h4⟩ := reports_state hM hg hev hj hS hz hx hgood hsv hsu hone hp
  refine ⟨f, g, Filter.Eventually.of_forall h1, ?_, h3, h4⟩
  show (stepOf S j >>= _) = _
  obtain ⟨hjl, hjp⟩ := List.getElem?_eq_some_iff.1 hj
  have : stepOf S j = .ok (List.ofFn u) := by
    unfold stepOf
    rw [if_pos (by omega), Int.toNat_natCast, rd_eq hjl, hjp]
  rw [this, Res.ok_bind]
  exact h2

end Deriv

end Plato.Crit
