import Verif.Trans.Model
import Verif.Crit.Physics

/-!
# Closed forms of the loops over domains and steps of transient criteria
-/

namespace Plato.Trans
open Finset Plato Plato.Mech Plato.Crit

/-- The vector of field `f` at step `t`. -/
def stateAt (H : List (List (List ℝ))) (f t : Nat) : List ℝ := (H[f]?.getD [])[t]?.getD []

/-- Histories of `F` fields with `T` steps each. -/
structure HistOk (M : FeModel) (F : Nat) (H : List (List (List ℝ))) (T : Nat) : Prop where
  fields : 0 < F
  steps : 0 < T
  field : ∀ f, f < F → ∃ h, H[f]? = some h ∧ h.length = T ∧ ∀ u ∈ h, u.length = M.nn * M.ndof

/-- Schedules of a call with `F` fields and `T` evaluations that assembles `w` entries for each cell. -/
structure TSched.Ok (M : FeModel) (sc : TSched) (F T w : Nat) : Prop where
  ctl : ∀ k, k < M.domains.length → IsSchedule (sc.ctl k) (M.size (M.part k))
  cfg : ∀ k, k < M.domains.length → IsSchedule (sc.cfg k) (M.size (M.part k))
  st : ∀ k i f, k < M.domains.length → i < T → f < F → IsSchedule (sc.st k i f) (M.size (M.part k))
  asm : ∀ k i, k < M.domains.length → i < T → IsSchedule (sc.asm k i) (M.size (M.part k) * w)
  sum : ∀ k i, k < M.domains.length → i < T → IsPartition (sc.sum k i) (M.size (M.part k))

/-- The worksets of the fields of a domain. -/
def gatherF {R : Type} [Zero R] (M : FeModel) (F : Nat) (mkS : Nat → Nat → ℝ → R) (k : Nat) (u : Nat → List ℝ) :
    Nat → V2 R := fun f => if f < F then gather (mkS f) M.npc M.ndof M.c2n (domCells M k) (u f) else
      ⟨(domCells M k).length, M.npc * M.ndof, fun _ _ => 0⟩

/-- The cell results of one domain with the given vectors of the fields. -/
def cellsT {R : Type} [Zero R] (M : FeModel) (F : Nat) (mkS : Nat → Nat → ℝ → R) (mkZ mkX : Nat → ℝ → R)
    (ev : TEvaluator R) (k : Nat) (u : Nat → List ℝ) (z x : List ℝ) (dt : ℝ) : Res (List R) :=
  ev k (gatherF M F mkS k u) (gather mkZ M.npc 1 M.c2n (domCells M k) z)
    (gatherX mkX M.npc M.dim M.c2n (domCells M k) x) (List.replicate (domCells M k).length 0) dt

section Loop
variable {R σ : Type} [Zero R] {M : FeModel} (hM : M.Ok) {F : Nat} {mkS : Nat → Nat → ℝ → R}
  {mkZ mkX : Nat → ℝ → R} {ev : TEvaluator R} {sc : TSched} {H : List (List (List ℝ))} {z x : List ℝ} {dt : ℝ}
  {w T : Nat} {pick : Nat → Nat → Nat} {steps : List Nat} (hH : HistOk M F H T)

include hM hH in
theorem fieldWorksets_exact {k : Nat} (hk : k < M.domains.length) {order : Nat → List Nat} {t : Nat}
    (hp : ∀ f, f < F → pick f t < T) (ho : ∀ f, f < F → IsSchedule (order f) (M.size (M.part k)))
    {b : Nat → V2 R} (hb : ∀ f, (b f).d0 = (domCells M k).length ∧ (b f).d1 = M.npc * M.ndof ∧
      (∀ r s, ¬ (r < (b f).d0 ∧ s < (b f).d1) → (b f).e r s = 0) ∧ (F ≤ f → ∀ r s, (b f).e r s = 0)) :
    fieldWorksets M F mkS (domCells M k) order pick H t b =
      .ok (gatherF M F mkS k fun f => stateAt H f (pick f t)) := by
  unfold fieldWorksets
  have hd := hM.domOk k
  rw [Crit.part_eq hk] at hd
  have hsz := size_eq hk
  let P : Nat → Nat → V2 R := fun n f => if f < n then
    gather (mkS f) M.npc M.ndof M.c2n (domCells M k) (stateAt H f (pick f t)) else b f
  have e0 : b = P 0 := by funext f; simp [P]
  have e1 : gatherF M F mkS k (fun f => stateAt H f (pick f t)) = P F := by
    funext f
    simp only [gatherF, P]
    split_ifs with h
    · rfl
    · obtain ⟨h0, h1, -, h3⟩ := hb f
      rcases hbf : b f with ⟨c0, c1, ce⟩
      rw [hbf] at h0 h1 h3
      rw [V2.mk.injEq]
      refine ⟨h0.symm, h1.symm, ?_⟩
      funext r s
      exact (h3 (Nat.not_lt.1 h) r s).symm
  rw [e0, e1]
  refine forRange_eq P fun f hf => ?_
  obtain ⟨h, eh, hl, hu⟩ := hH.field f hf
  obtain ⟨hfl, hfe⟩ := List.getElem?_eq_some_iff.1 eh
  have hpl : pick f t < h.length := by rw [hl]; exact hp f hf
  have est : stateAt H f (pick f t) = h[pick f t] := by
    unfold stateAt
    rw [eh]
    simp [List.getElem?_eq_getElem hpl]
  have hPf : P f f = b f := by simp [P]
  obtain ⟨h0, h1, h2, -⟩ := hb f
  rw [rd_eq hfl, Res.ok_bind, hfe, rd_eq hpl, Res.ok_bind, hPf,
    workset_exact hM.mesh hd (hu _ (List.getElem_mem hpl)) h0 h1 h2 (hsz ▸ ho f hf), Res.ok_bind]
  show Res.ok _ = Res.ok _
  congr 1
  funext g
  by_cases hg : g = f
  · subst hg
    simp only [if_true, P, Nat.lt_succ_self, est]
  · have : g < f + 1 ↔ g < f := by omega
    simp only [if_neg hg, P, this]

variable (hz : z.length = M.nn) (hx : x.length = M.nn * M.dim) (hsc : sc.Ok M F steps.length w)
  (hp : ∀ f t, f < F → t ∈ steps → pick f t < T)
include hM hH hz hx hsc hp

/-- Induction along domains and steps. -/
theorem overT_sat {r : Nat → Nat → List R}
    (hr : ∀ k i (hi : i < steps.length), k < M.domains.length →
      cellsT M F mkS mkZ mkX ev k (fun f => stateAt H f (pick f steps[i])) z x dt = .ok (r k i))
    {body : List Nat → Nat → Nat → List R → σ → Res σ} {s : σ}
    (P : Nat → Nat → σ → Prop) (h0 : P 0 0 s)
    (hb : ∀ k i s, k < M.domains.length → i < steps.length → P k i s →
      (body (domCells M k) k i (r k i) s).Sat (P k (i + 1)))
    (hn : ∀ k s, k < M.domains.length → P k steps.length s → P (k + 1) 0 s) :
    (overT M F mkS mkZ mkX ev sc pick steps H z x dt body s).Sat (P M.domains.length 0) := by
  unfold overT
  refine forRange_inv (fun k s => P k 0 s) (Nat.zero_le _) h0 ?_
  intro k s _ hk hs0
  have e : rd M.domains k = .ok (domCells M k) := by
    unfold domCells
    rw [List.getElem?_eq_getElem hk]
    simp [rd, hk]
  have hd := hM.domOk k
  rw [Crit.part_eq hk] at hd
  have hsz := size_eq hk
  rw [e, Res.ok_bind,
    workset_exact (d := 1) hM.mesh hd (by rw [hz, Nat.mul_one]) rfl (by simp) (fun _ _ _ => rfl)
      (hsz ▸ hsc.ctl k hk), Res.ok_bind,
    worksetConfig_exact hM.mesh hd hx rfl rfl rfl (fun _ _ _ _ => rfl) (hsz ▸ hsc.cfg k hk), Res.ok_bind]
  refine Res.Sat.bind (forRange_inv (fun t (p : (Nat → V2 R) × σ) => (∀ f, (p.1 f).d0 = (domCells M k).length ∧
    (p.1 f).d1 = M.npc * M.ndof ∧ (∀ a b, ¬ (a < (p.1 f).d0 ∧ b < (p.1 f).d1) → (p.1 f).e a b = 0) ∧
    (F ≤ f → ∀ a b, (p.1 f).e a b = 0)) ∧ P k t p.2)
    (Nat.zero_le _) ⟨fun f => ⟨rfl, rfl, fun _ _ _ => rfl, fun _ _ _ => rfl⟩, hs0⟩ ?_) ?_
  · rintro i ⟨b, s⟩ - hi ⟨hb', hp'⟩
    dsimp only at hb' hp' ⊢
    rw [rd_eq hi, Res.ok_bind, fieldWorksets_exact hM hH hk (fun f hf => hp f _ hf (List.getElem_mem hi))
      (fun f hf => hsc.st k i f hk hi hf) hb', Res.ok_bind]
    have e3 := hr k i hi hk
    unfold cellsT at e3
    rw [e3, Res.ok_bind]
    refine Res.Sat.bind (hb k i s hk hi hp') fun s' hs' => ?_
    refine Res.Sat.ok ⟨fun f => ?_, hs'⟩
    unfold gatherF
    dsimp only
    split_ifs with hf
    · exact ⟨rfl, rfl, fun a b hab => if_neg hab, fun h => absurd hf (Nat.not_lt.2 h)⟩
    · exact ⟨rfl, rfl, fun _ _ _ => rfl, fun _ _ _ => rfl⟩
  · rintro ⟨b, s⟩ ⟨-, hp'⟩
    exact Res.Sat.ok (hn k s hk hp')

end Loop

section Value
variable {M : FeModel} (hM : M.Ok) {F T : Nat} {sc : TSched} {H : List (List (List ℝ))} {z x : List ℝ} {dt : ℝ}
  {w : Nat} (hH : HistOk M F H T) (hz : z.length = M.nn) (hx : x.length = M.nn * M.dim)
include hM hH hz hx

omit hM hz hx in
theorem stepsDown_ok : stepsDown H = .ok ((List.range (T - 1)).map fun i => T - 1 - i) := by
  obtain ⟨h, eh, hl, -⟩ := hH.field 0 hH.fields
  obtain ⟨hfl, hfe⟩ := List.getElem?_eq_some_iff.1 eh
  unfold stepsDown
  rw [rd_eq hfl, Res.ok_bind, hfe, hl, if_neg hH.steps.ne']
  rfl

/-- The value: sum over domains, steps `1` to `T - 1` and cells, then `postEvaluate`. -/
theorem transValue_ok (hsc : sc.Ok M F (T - 1) w) {ev : TEvaluator ℝ} (post : Post) {r : Nat → Nat → List ℝ}
    (hr : ∀ k t, t + 1 < T → k < M.domains.length →
      cellsT M F (fun _ => plainOf) plainOf plainOf ev k (fun f => stateAt H f (t + 1)) z x dt = .ok (r k t))
    (hl : ∀ k t, k < M.domains.length → t + 1 < T → (r k t).length = M.size (M.part k)) :
    transValue M F ev post sc H z x dt = .ok (post.val (∑ k ∈ range M.domains.length,
      ∑ t ∈ range (T - 1), ∑ c ∈ range (M.size (M.part k)), at0 (r k t) c)) := by
  unfold transValue
  rw [stepsDown_ok hH, Res.ok_bind]
  set S : Nat → Nat → ℝ := fun k i => ∑ c ∈ range (M.size (M.part k)), at0 (r k (T - 2 - i)) c with hS
  have := overT_sat hM hH hz hx (pick := sameStep) (steps := (List.range (T - 1)).map fun i => T - 1 - i)
    (sc := sc) (w := w) (by simpa using hsc)
    (by
      intro f t _ ht
      simp only [List.mem_map, List.mem_range] at ht
      obtain ⟨i, hi, rfl⟩ := ht
      show T - 1 - i < T
      omega)
    (mkS := fun _ => plainOf) (mkZ := plainOf) (mkX := plainOf) (ev := ev) (dt := dt)
    (r := fun k i => r k (T - 2 - i))
    (fun k i hi hk => by
      simp only [List.length_map, List.length_range] at hi
      have h := hr k (T - 2 - i) (by omega) hk
      rw [← h]
      simp only [List.getElem_map, List.getElem_range, sameStep]
      congr 1
      funext f
      congr 1
      omega) (s := (0 : ℝ))
    (body := fun _ k t r v => do
      let a ← localResultSum (sc.sum k t) r
      pure (v + a))
    (fun k t v => v = ∑ k' ∈ range k, ∑ t ∈ range (T - 1), S k' t + ∑ t' ∈ range t, S k t') (by simp)
    (by
      rintro k t v hk ht rfl
      simp only [List.length_map, List.length_range] at ht
      unfold localResultSum
      rw [parReduce_sum (hsc.sum k t hk ht) (f := fun c => at0 (r k (T - 2 - t)) c)
        (fun c s hc => by rw [rd_at0 (by rw [hl k _ hk (by omega)]; exact hc)]; rfl), Res.ok_bind]
      refine Res.Sat.ok ?_
      rw [sum_range_succ _ t, add_assoc])
    (by
      rintro k v hk rfl
      simp only [List.length_map, List.length_range]
      rw [sum_range_succ, sum_range_zero, add_zero])
  obtain ⟨v, e, rfl⟩ := this
  rw [e, Res.ok_bind, if_neg (by simpa using hM.some_domain)]
  simp only [range_zero, sum_empty, add_zero]
  show Res.ok _ = Res.ok _
  congr 2
  refine sum_congr rfl fun k _ => ?_
  rw [← sum_range_reflect]
  refine sum_congr rfl fun i hi => ?_
  simp only [hS]
  rw [show T - 2 - (T - 1 - 1 - i) = i by have := mem_range.1 hi; omega]

/-- The gradient before `postEvaluate`, for any steps. -/
theorem gradT_ok {d : Nat} {mkS : Nat → Nat → ℝ → Fad} {mkZ mkX : Nat → ℝ → Fad} {ev : TEvaluator Fad} (post : Post)
    {pick : Nat → Nat → Nat} {steps : List Nat} (hp : ∀ f t, f < F → t ∈ steps → pick f t < T)
    (hsc : sc.Ok M F steps.length (M.npc * d)) {r : Nat → Nat → List Fad}
    (hr : ∀ k i (hi : i < steps.length), k < M.domains.length →
      cellsT M F mkS mkZ mkX ev k (fun f => stateAt H f (pick f steps[i])) z x dt = .ok (r k i))
    (hl : ∀ k i, k < M.domains.length → i < steps.length → (r k i).length = M.size (M.part k)) :
    ∃ g : List ℝ, g.length = M.nn * d ∧
      (∀ q, at0 g q = ∑ k ∈ range M.domains.length, ∑ t ∈ range steps.length,
        scatteredVec M.npc d M.c2n (M.part k) (M.size (M.part k)) (fun c l => (at0 (r k t) c).dx l) q) ∧
      gradT M F d mkS mkZ mkX ev post sc pick steps H z x dt = post.grad g (∑ k ∈ range M.domains.length,
        ∑ t ∈ range steps.length, ∑ c ∈ range (M.size (M.part k)), (at0 (r k t) c).val) := by
  have := overT_sat hM hH hz hx hsc hp hr (s := (List.replicate (d * M.nn) (0 : ℝ), (0 : ℝ)))
    (body := fun cells k t r (p : List ℝ × ℝ) => do
      let g ← assembleResidual M.npc d M.c2n (some cells) cells.length (fadRows r (M.npc * d)) (sc.asm k t) p.1
      let a ← assembleScalarFuncValue (sc.sum k t) r
      pure (g, p.2 + a))
    (fun k t p => p.1.length = M.nn * d ∧
      (∀ q, at0 p.1 q = ∑ k' ∈ range k, ∑ t ∈ range steps.length,
        scatteredVec M.npc d M.c2n (M.part k') (M.size (M.part k')) (fun c l => (at0 (r k' t) c).dx l) q +
        ∑ t' ∈ range t,
          scatteredVec M.npc d M.c2n (M.part k) (M.size (M.part k)) (fun c l => (at0 (r k t') c).dx l) q) ∧
      p.2 = ∑ k' ∈ range k, ∑ t ∈ range steps.length, ∑ c ∈ range (M.size (M.part k')), (at0 (r k' t) c).val
      + ∑ t' ∈ range t, ∑ c ∈ range (M.size (M.part k)), (at0 (r k t') c).val)
    (by
      refine ⟨by rw [List.length_replicate, Nat.mul_comm], fun q => ?_, by simp⟩
      simp only [range_zero, sum_empty, at0, List.getElem?_replicate, add_zero]
      split_ifs <;> rfl)
    (by
      rintro k t ⟨g, v⟩ hk ht ⟨h1, h2, h3⟩
      dsimp only at h1 h2 h3 ⊢
      have hd := hM.domOk k
      rw [Crit.part_eq hk] at hd
      have hsz := size_eq hk
      refine Res.Sat.bind (C08_assembleResidual hM.mesh hd h1
        (by show _ ≤ (r k t).length; rw [hl k t hk ht, hsz]) le_rfl (hsz ▸ hsc.asm k t hk ht)) ?_
      rintro g' ⟨e1, e2⟩
      unfold assembleScalarFuncValue
      rw [parReduce_sum (hsc.sum k t hk ht) (f := fun c => (at0 (r k t) c).val)
        (fun c s hc => by rw [rd_at0 (by rw [hl k t hk ht]; exact hc)]; rfl), Res.ok_bind]
      refine Res.Sat.ok ⟨e1, fun q => ?_, ?_⟩
      · dsimp only
        rw [e2 q, h2 q, sum_range_succ _ t, add_assoc, hsz, Crit.part_eq hk]
        rfl
      · dsimp only
        rw [h3, sum_range_succ _ t, add_assoc])
    (by
      rintro k ⟨g, v⟩ hk ⟨h1, h2, h3⟩
      refine ⟨h1, fun q => ?_, ?_⟩
      · dsimp only at h2 ⊢
        rw [h2 q, sum_range_succ, sum_range_zero, add_zero]
      · dsimp only at h3 ⊢
        rw [h3, sum_range_succ, sum_range_zero, add_zero])
  obtain ⟨⟨g, v⟩, e, h1, h2, h3⟩ := this
  dsimp only at h1 h2 h3
  refine ⟨g, h1, fun q => by rw [h2 q]; simp, ?_⟩
  unfold gradT
  rw [e, Res.ok_bind, if_neg (by simpa using hM.some_domain), h3]
  simp

end Value

end Plato.Trans
