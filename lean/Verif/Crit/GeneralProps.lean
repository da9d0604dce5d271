import Verif.Crit.General

/-!
# C103: histories, value and gradients of the general criterion
-/

namespace Plato.Crit
open Finset Plato Plato.Mech

/-! ## Evaluators whose function depends on the cell -/

section CellForm
variable {M : FeModel}

/-- An evaluator computes a function of the number and the data of each cell. -/
def CellComputes {R : Type} [Zero R] (M : FeModel) (ev : ScalarEvaluator R) (dt : ℝ)
    (form : Nat → Nat → (Nat → R) → (Nat → R) → (Nat → Nat → R) → R) : Prop :=
  ∀ k s z x, k < M.domains.length → PartOk M k s z x →
    (ev k s z x (List.replicate (M.size (M.part k)) 0) dt).Sat fun r => r.length = M.size (M.part k) ∧
      ∀ c, c < M.size (M.part k) → at0 r c = form k c (s.e c) (z.e c) (x.e c)

/-- The function of the cell data does not read entries that do not exist. -/
def CellFormLocal {R : Type} (M : FeModel) (form : Nat → Nat → (Nat → R) → (Nat → R) → (Nat → Nat → R) → R) : Prop :=
  ∀ k c U U' Z Z' X X', k < M.domains.length → (∀ l, l < M.npc * M.ndof → U l = U' l) →
    (∀ a, a < M.npc → Z a = Z' a) → (∀ a i, a < M.npc → i < M.dim → X a i = X' a i) →
    form k c U Z X = form k c U' Z' X'

theorem value_of_cellForm (hM : M.Ok) {ev : ScalarEvaluator ℝ} {dt : ℝ}
    {form : Nat → Nat → (Nat → ℝ) → (Nat → ℝ) → (Nat → Nat → ℝ) → ℝ} (hR : CellComputes M ev dt form)
    (hl : CellFormLocal M form) {S : List (List ℝ)} {z x : List ℝ} (hS : ∀ u ∈ S, u.length = M.nn * M.ndof)
    (hz : z.length = M.nn) (hx : x.length = M.nn * M.dim) {sv : Sched} {w : Nat} (hsv : sv.Ok M S.length w)
    (post : Post) :
    physicsValue M ev post sv S z x dt = .ok (post.val (∑ k ∈ range M.domains.length, ∑ t ∈ range S.length,
      ∑ c ∈ range (M.size (M.part k)), form k c (cellS M (S[t]?.getD []) (gcell (M.part k) c))
        (M.cellZ z (gcell (M.part k) c)) (M.cellX x (gcell (M.part k) c)))) := by
  have hc : ∀ k t, ∃ r : List ℝ, ∀ (ht : t < S.length), k < M.domains.length →
      cellsOf M plainOf plainOf plainOf ev k S[t] z x dt = .ok r ∧ r.length = M.size (M.part k) ∧
      ∀ c, c < M.size (M.part k) → at0 r c = form k c (cellS M S[t] (gcell (M.part k) c))
        (M.cellZ z (gcell (M.part k) c)) (M.cellX x (gcell (M.part k) c)) := by
    intro k t
    by_cases h : t < S.length ∧ k < M.domains.length
    · have hk := h.2
      have hsz := size_eq hk
      obtain ⟨r, e, l, q⟩ := hR k (gather plainOf M.npc M.ndof M.c2n (domCells M k) S[t])
        (gather plainOf M.npc 1 M.c2n (domCells M k) z) (gatherX plainOf M.npc M.dim M.c2n (domCells M k) x) hk
        ⟨hsz.symm, rfl, hsz.symm, Nat.mul_one _, hsz.symm, rfl, rfl⟩
      refine ⟨r, fun _ _ => ⟨?_, l, fun c hc => ?_⟩⟩
      · unfold cellsOf
        rw [← hsz]
        exact e
      · rw [q c hc]
        refine hl k c _ _ _ _ _ _ hk ?_ ?_ ?_
        · intro l hl
          rw [part_eq hk]
          exact if_pos ⟨hsz ▸ hc, hl⟩
        · intro a ha
          rw [part_eq hk]
          unfold FeModel.cellZ
          rw [← cellDof_one]
          exact if_pos ⟨hsz ▸ hc, by rw [Nat.mul_one]; exact ha⟩
        · intro a i ha hi
          rw [part_eq hk]
          exact if_pos ⟨hsz ▸ hc, ha, hi⟩
    · exact ⟨[], fun h1 h2 => absurd ⟨h1, h2⟩ h⟩
  choose r hc using hc
  rw [physicsValue_ok hM hS hz hx hsv post (fun k t ht hk => (hc k t ht hk).1)
    (fun k t hk ht => (hc k t ht hk).2.1)]
  congr 2
  refine sum_congr rfl fun k hk => sum_congr rfl fun t ht => sum_congr rfl fun c hc' => ?_
  rw [(hc k t (mem_range.1 ht) (mem_range.1 hk)).2.2 c (mem_range.1 hc'),
    List.getElem?_eq_getElem (mem_range.1 ht)]
  rfl

end CellForm

/-! ## Histories of updates -/

/-- The four evaluators of each domain have the same state. -/
def GenAgree (M : FeModel) (F : Nat → GenCopies) : Prop :=
  ∀ k, k < M.domains.length → (F k).gradU = (F k).value ∧ (F k).gradZ = (F k).value ∧ (F k).gradX = (F k).value

theorem nextGen_ok {G : General} {m : Nat} (h : G.base.Ok m) (n : Nat) (over rho : Nat → ℝ) :
    (nextGen G n over rho).base.Ok m :=
  ⟨by simp [nextGen, nextGenLam, h.size], le_min (mul_nonneg h.expansion h.penalty) h.bound, h.bound, h.expansion,
    h.minLow, h.minHigh⟩

/-- What one call does to an object: inputs, weights, density and normalisation stay, the rest is as for the
quadratic criterion. -/
structure GenStep (n : Nat) (A B : General) : Prop where
  step : Step n A.base B.base
  fixed : B.massWeight = A.massWeight ∧ B.stressWeight = A.stressWeight ∧ B.density = A.density ∧ B.norm = A.norm
  penalty : B.base.penalty = min (A.base.expansion * A.base.penalty) A.base.bound

theorem at0_nextGenLam (A : AugLag) (n : Nat) (over rho : Nat → ℝ) (hn : n ≤ A.lam.length) (c : Nat) :
    at0 (nextGenLam A n over rho) c = if c < n then
      max (at0 A.lam c + A.penalty * (Plato.simp A.simp (rho c) * excess4 (over c))) 0 else at0 A.lam c := by
  by_cases hc : c < A.lam.length
  · rw [at0_eq (by simp [nextGenLam, hc])]
    simp only [nextGenLam, List.getElem_ofFn]
  · have e1 : at0 A.lam c = 0 := by unfold at0; rw [List.getElem?_eq_none (by omega)]; rfl
    have e2 : at0 (nextGenLam A n over rho) c = 0 := by
      unfold at0; rw [List.getElem?_eq_none (by simp [nextGenLam]; omega)]; rfl
    rw [e2, if_neg (by omega), e1]

theorem nextGen_step {G : General} {m : Nat} (h : G.base.Ok m) {n : Nat} (hn : n ≤ m) (over rho : Nat → ℝ)
    (hr : ∀ c, c < n → 0 ≤ rho c) : GenStep n G (nextGen G n over rho) := by
  have hn' : n ≤ G.base.lam.length := by rw [h.size]; exact hn
  refine ⟨⟨⟨rfl, rfl, rfl, rfl⟩, min_le_right _ _, fun c => ?_, fun c hc => ?_⟩, ⟨rfl, rfl, rfl, rfl⟩, rfl⟩
  · show _ ≤ at0 (nextGenLam G.base n over rho) c
    rw [at0_nextGenLam _ _ _ _ hn']
    split_ifs with h'
    · have := mul_nonneg h.penalty (mul_nonneg (simp_nonneg h (hr c h')) (excess4_nonneg (over c)))
      exact le_max_of_le_left (by linarith)
    · exact le_rfl
  · show 0 ≤ at0 (nextGenLam G.base n over rho) c
    rw [at0_nextGenLam _ _ _ _ hn', if_pos hc]
    exact le_max_right _ _

section History
variable {M : FeModel} (hM : M.Ok) {P : Nat → Elastostatic ℝ} (h : MechOk M P) {x : List ℝ}
  (hx : x.length = M.nn * M.dim) (hsize : ∀ k, k < M.domains.length → M.size (M.part k) ≤ M.nc)

/-- Von Mises stress of a cell of a domain over the limit, from the global vectors. -/
noncomputable def cellOver (M : FeModel) (P : Nat → Elastostatic ℝ) (G : General) (k : Nat) (u x : List ℝ) (c : Nat) : ℝ :=
  vonMisesForm Real.sqrt (1 / 2) (P k).d ((P k).solidStress (cellS M u (gcell (M.part k) c))
    (M.cellX x (gcell (M.part k) c))) / G.base.limit

include h in
theorem gathered_over {k : Nat} (hk : k < M.domains.length) (G : General) (u x : List ℝ) {i : Nat}
    (hi : i < M.size (M.part k)) :
    overOf G (P k) (gather plainOf M.npc M.ndof M.c2n (domCells M k) u)
      (gatherX plainOf M.npc M.dim M.c2n (domCells M k) x) i = cellOver M P G k u x i := by
  have hsz := size_eq hk
  have := vonMises_local h (1 / 2) k ((gather plainOf M.npc M.ndof M.c2n (domCells M k) u).e i)
    (cellS M u (gcell (M.part k) i)) ((gatherX plainOf M.npc M.dim M.c2n (domCells M k) x).e i)
    (M.cellX x (gcell (M.part k) i)) hk (fun l hl => by
      rw [part_eq hk]
      exact if_pos ⟨hsz ▸ hi, hl⟩) (fun a b ha hb => by
      rw [part_eq hk]
      exact if_pos ⟨hsz ▸ hi, ha, hb⟩)
  exact congrArg (· / G.base.limit) this

theorem gathered_control {k : Nat} (hk : k < M.domains.length) (z : List ℝ) {i : Nat}
    (hi : i < M.size (M.part k)) {l : Nat} (hl : l < M.npc) :
    (gather plainOf M.npc 1 M.c2n (domCells M k) z).e i l = M.cellZ z (gcell (M.part k) i) l := by
  have hsz := size_eq hk
  rw [part_eq hk]
  unfold FeModel.cellZ
  rw [← cellDof_one]
  exact if_pos ⟨hsz ▸ hi, by rw [Nat.mul_one]; exact hl⟩

/-- The object of a domain after a call. -/
noncomputable def afterCall (M : FeModel) (P : Nat → Elastostatic ℝ) (k : Nat) (u z x : List ℝ) (G : General) : General :=
  nextGen G (M.size (M.part k)) (overOf G (P k) (gather plainOf M.npc M.ndof M.c2n (domCells M k) u)
    (gatherX plainOf M.npc M.dim M.c2n (domCells M k) x))
    fun c => meanDensity ((P k).d + 1) ((gather plainOf M.npc 1 M.c2n (domCells M k) z).e c)

include h in
theorem afterCall_spec {k : Nat} (hk : k < M.domains.length) (hsz : M.size (M.part k) ≤ M.nc) {u z x : List ℝ}
    (hpos : ∀ i, 0 ≤ at0 z i) {G : General} (hG : G.base.Ok M.nc) :
    (afterCall M P k u z x G).base.Ok M.nc ∧ GenStep (M.size (M.part k)) G (afterCall M P k u z x G) ∧
    ∀ i, i < M.size (M.part k) → at0 (afterCall M P k u z x G).base.lam i = max (at0 G.base.lam i +
      G.base.penalty * (Plato.simp G.base.simp (meanDensity M.npc (M.cellZ z (gcell (M.part k) i))) *
        excess4 (cellOver M P G k u x i))) 0 := by
  have hnp : (P k).d + 1 = M.npc := by rw [FeModel.npc, h.d k hk]
  refine ⟨nextGen_ok hG _ _ _, nextGen_step hG hsz _ _ ?_, ?_⟩
  · intro c hc
    refine div_nonneg (sum_nonneg fun l hl => ?_) (Nat.cast_nonneg _)
    rw [gathered_control hk z hc (by rw [← hnp]; exact mem_range.1 hl)]
    exact hpos _
  · intro i hi
    have hA : M.size (M.part k) ≤ G.base.lam.length := by rw [hG.size]; exact hsz
    have e := at0_nextGenLam G.base (M.size (M.part k)) (overOf G (P k) (gather plainOf M.npc M.ndof M.c2n (domCells M k) u)
      (gatherX plainOf M.npc M.dim M.c2n (domCells M k) x))
      (fun c => meanDensity ((P k).d + 1) ((gather plainOf M.npc 1 M.c2n (domCells M k) z).e c)) hA i
    rw [if_pos hi, gathered_over h hk G u x hi] at e
    have e2 : meanDensity ((P k).d + 1) ((gather plainOf M.npc 1 M.c2n (domCells M k) z).e i) =
        meanDensity M.npc (M.cellZ z (gcell (M.part k) i)) := by
      rw [hnp]
      exact meanDensity_congr fun l hl => gathered_control hk z hi hl
    rw [← e2]
    exact e

include hM h hx hsize

/-- **C103**: one call of `updateProblem`.  All copies of every domain make the same step, and the
multiplier of a cell grows by the penalty times the penalised excess of its stress. -/
theorem C103_update {c : UpdateSched × List ℝ × List ℝ} (hc : CallOk M c) {F : Nat → GenCopies} (hF : GenAgree M F)
    (hok : ∀ k, k < M.domains.length → (F k).value.base.Ok M.nc) :
    (genUpdateProblem M P x c.1 c.2.1 c.2.2 F).Sat fun F' => GenAgree M F' ∧
      ∀ k, k < M.domains.length → (F' k).value.base.Ok M.nc ∧
        GenStep (M.size (M.part k)) (F k).value (F' k).value ∧
        ∀ i, i < M.size (M.part k) → at0 (F' k).value.base.lam i = max (at0 (F k).value.base.lam i +
          (F k).value.base.penalty * (Plato.simp (F k).value.base.simp
            (meanDensity M.npc (M.cellZ c.2.2 (gcell (M.part k) i))) *
            excess4 (cellOver M P (F k).value k c.2.1 x i))) 0 := by
  obtain ⟨sc, u, z⟩ := c
  obtain ⟨hsc, hu, hz, hpos⟩ := hc
  dsimp only at hsc hu hz hpos ⊢
  unfold genUpdateProblem
  refine (forRange_inv (fun k (F' : Nat → GenCopies) => (∀ j, k ≤ j → F' j = F j) ∧ ∀ j, j < k → j < M.domains.length →
    ((F' j).gradU = (F' j).value ∧ (F' j).gradZ = (F' j).value ∧ (F' j).gradX = (F' j).value) ∧
    (F' j).value.base.Ok M.nc ∧ GenStep (M.size (M.part j)) (F j).value (F' j).value ∧
    ∀ i, i < M.size (M.part j) → at0 (F' j).value.base.lam i = max (at0 (F j).value.base.lam i +
      (F j).value.base.penalty * (Plato.simp (F j).value.base.simp
        (meanDensity M.npc (M.cellZ z (gcell (M.part j) i))) *
        excess4 (cellOver M P (F j).value j u x i))) 0) (Nat.zero_le _)
    ⟨fun _ _ => rfl, fun j hj => absurd hj (Nat.not_lt_zero j)⟩ ?_).mono ?_
  · rintro k F' - hk ⟨hrest, hdone⟩
    have e : rd M.domains k = .ok (domCells M k) := by
      unfold domCells
      rw [List.getElem?_eq_getElem hk]
      simp [rd, hk]
    have hd := hM.domOk k
    rw [part_eq hk] at hd
    have hsz := size_eq hk
    have hP : PartOk M k (gather plainOf M.npc M.ndof M.c2n (domCells M k) u)
        (gather plainOf M.npc 1 M.c2n (domCells M k) z) (gatherX plainOf M.npc M.dim M.c2n (domCells M k) x) :=
      ⟨hsz.symm, rfl, hsz.symm, Nat.mul_one _, hsz.symm, rfl, rfl⟩
    have hW := h.wsOk hk hP
    rw [hP.s0] at hW
    have hA : M.size (M.part k) ≤ (F k).value.base.lam.length := by rw [(hok k hk).size]; exact hsize k hk
    rw [e, Res.ok_bind, workset_exact hM.mesh hd hu rfl rfl (fun _ _ _ => rfl) (hsz ▸ hsc.st k hk), Res.ok_bind,
      workset_exact (d := 1) hM.mesh hd (by rw [hz, Nat.mul_one]) rfl (by simp) (fun _ _ _ => rfl)
      (hsz ▸ hsc.ctl k hk), Res.ok_bind,
      worksetConfig_exact hM.mesh hd hx rfl rfl rfl (fun _ _ _ _ => rfl) (hsz ▸ hsc.cfg k hk), Res.ok_bind]
    obtain ⟨g1, g2, g3⟩ := hF k hk
    rw [hrest k le_rfl, g1, g2, g3, ← hsz, genUpdate_ok (h.d3 hk) hW (hsc.upd k 0 hk) hA, Res.ok_bind,
      genUpdate_ok (h.d3 hk) hW (hsc.upd k 1 hk) hA, Res.ok_bind, genUpdate_ok (h.d3 hk) hW (hsc.upd k 2 hk) hA,
      Res.ok_bind, genUpdate_ok (h.d3 hk) hW (hsc.upd k 3 hk) hA, Res.ok_bind, Res.pure_eq, Res.sat_ok]
    change (∀ j, k + 1 ≤ j → Function.update F' k ⟨afterCall M P k u z x (F k).value, afterCall M P k u z x (F k).value,
      afterCall M P k u z x (F k).value, afterCall M P k u z x (F k).value⟩ j = F j) ∧ _
    refine ⟨fun j hj => ?_, fun j hj hjd => ?_⟩
    · rw [Function.update_of_ne (by omega)]
      exact hrest j (by omega)
    · by_cases hjk : j = k
      · subst hjk
        rw [Function.update_self]
        exact ⟨⟨rfl, rfl, rfl⟩, afterCall_spec h hk (hsize j hk) hpos (hok j hk)⟩
      · rw [Function.update_of_ne hjk]
        exact hdone j (by omega) hjd
  · rintro F' ⟨-, h⟩
    exact ⟨fun k hk => (h k hk hk).1, fun k hk => (h k hk hk).2⟩

/-- **C103**: any history of calls, any schedules.  The four evaluators of a domain agree; inputs, weights,
density and normalisation stay; no multiplier decreases; after the first call the multipliers of the cells
of the domain are not negative and the penalty does not exceed its bound. -/
theorem C103_history (l : List (UpdateSched × List ℝ × List ℝ)) (hl : ∀ c ∈ l, CallOk M c) {F : Nat → GenCopies}
    (hF : GenAgree M F) (hok : ∀ k, k < M.domains.length → (F k).value.base.Ok M.nc) :
    (genUpdates M P x l F).Sat fun F' => GenAgree M F' ∧ ∀ k, k < M.domains.length → (F' k).value.base.Ok M.nc ∧
      ((F' k).value.base.simp = (F k).value.base.simp ∧ (F' k).value.base.limit = (F k).value.base.limit ∧
        (F' k).value.base.bound = (F k).value.base.bound ∧
        (F' k).value.base.expansion = (F k).value.base.expansion) ∧
      ((F' k).value.massWeight = (F k).value.massWeight ∧ (F' k).value.stressWeight = (F k).value.stressWeight ∧
        (F' k).value.density = (F k).value.density ∧ (F' k).value.norm = (F k).value.norm) ∧
      (∀ c, at0 (F k).value.base.lam c ≤ at0 (F' k).value.base.lam c) ∧
      (F' k).value.base.penalty ≤ max (F k).value.base.penalty (F k).value.base.bound ∧
      (l ≠ [] → (F' k).value.base.penalty ≤ (F k).value.base.bound ∧
        ∀ c, c < M.size (M.part k) → 0 ≤ at0 (F' k).value.base.lam c) := by
  induction l generalizing F with
  | nil => exact Res.Sat.ok ⟨hF, fun k hk => ⟨hok k hk, ⟨rfl, rfl, rfl, rfl⟩, ⟨rfl, rfl, rfl, rfl⟩, fun _ => le_rfl,
      le_max_left _ _, fun h => absurd rfl h⟩⟩
  | cons c l ih =>
    obtain ⟨sc, u, z⟩ := c
    unfold genUpdates
    refine Res.Sat.bind (C103_update hM h hx hsize (hl _ List.mem_cons_self) hF hok) ?_
    rintro F1 ⟨a1, b1⟩
    refine (ih (fun c hc => hl c (List.mem_cons_of_mem _ hc)) a1 fun k hk => (b1 k hk).1).mono ?_
    rintro F2 ⟨a2, b2⟩
    refine ⟨a2, fun k hk => ?_⟩
    obtain ⟨o2, ⟨f1, f2, f3, f4⟩, ⟨w1, w2, w3, w4⟩, m2, q2, n2⟩ := b2 k hk
    obtain ⟨-, s1, -⟩ := b1 k hk
    obtain ⟨g1, g2, g3, g4⟩ := s1.step.fixed
    obtain ⟨v1, v2, v3, v4⟩ := s1.fixed
    have hb : (F2 k).value.base.penalty ≤ (F k).value.base.bound := q2.trans (max_le s1.step.bounded g3.le)
    exact ⟨o2, ⟨f1.trans g1, f2.trans g2, f3.trans g3, f4.trans g4⟩,
      ⟨w1.trans v1, w2.trans v2, w3.trans v3, w4.trans v4⟩, fun c => (s1.step.mono c).trans (m2 c),
      hb.trans (le_max_right _ _), fun _ => ⟨hb, fun c hc => (s1.step.nonneg c hc).trans (m2 c)⟩⟩

end History

/-! ## The value -/

section Value
variable {M : FeModel} (hM : M.Ok) {P : Nat → Elastostatic ℝ} (h : MechOk M P) {basis : List ℝ}
  (hb : basis.length = M.npc) {G : Nat → General}
  (hG : ∀ k, k < M.domains.length → M.size (M.part k) ≤ (G k).base.lam.length)
include h hb hG

theorem general_computes {e : Nat → List Nat} (he : ∀ k, IsSchedule (e k) (M.size (M.part k))) (dt : ℝ) :
    CellComputes M (generalEval abs Real.sqrt id id Plato.simp P basis G e) dt fun k c U Z X =>
      genForm abs Real.sqrt id id Plato.simp (G k) (P k) basis (M.size (M.part k)) c U Z X := by
  intro k s z x hk hp
  have hw := h.wsOk hk hp
  rw [hp.s0] at hw
  exact generalEval_ok (h.d3 hk) hw (he k) (by rw [hb, FeModel.npc, h.d k hk]) (hG k hk) dt

theorem general_computes_fad {penF : Nat → Fad → Fad} {e : Nat → List Nat}
    (he : ∀ k, IsSchedule (e k) (M.size (M.part k))) (dt : ℝ) :
    CellComputes M (generalEval Fad.fabs sqrtFad Fad.val Fad.const simpFad (fun k => (P k).lift (penF k)) basis G e) dt
      fun k c U Z X => genForm Fad.fabs sqrtFad Fad.val Fad.const simpFad (G k) ((P k).lift (penF k)) basis
        (M.size (M.part k)) c U Z X := by
  intro k s z x hk hp
  have hw := h.wsOk hk hp
  rw [hp.s0] at hw
  exact generalEval_ok (P := fun k => (P k).lift (penF k)) (h.d3 hk) hw (he k)
    (by rw [hb, FeModel.npc, ← h.d k hk]; rfl) (hG k hk) dt

omit hb hG in
theorem general_local : CellFormLocal M fun k c U Z X =>
    genForm abs Real.sqrt id id Plato.simp (G k) (P k) basis (M.size (M.part k)) c U Z X := by
  intro k c U U' Z Z' X X' hk hU hZ hX
  have hd := h.d k hk
  have hnp : (P k).d + 1 = M.npc := by rw [FeModel.npc, hd]
  have hv := vonMises_local h (1 / 2) k U U' X X' hk hU hX
  have hZ' : ∀ a, a < (P k).d + 1 → Z a = Z' a := fun a ha => hZ a (by rw [← hnp]; exact ha)
  have hdet : detForm (P k).d X = detForm (P k).d X' :=
    detForm_congr (h.d3 hk) fun a i ha hi => hX a i (by rw [← hnp]; exact ha) (by rw [← hd]; exact hi)
  dsimp only at hv ⊢
  unfold genForm Elastostatic.volForm
  simp only [id] at hv ⊢
  rw [massForm_congr hZ', meanDensity_congr hZ', hdet, hv]

include hM

/-- **C103**: the criterion in closed form.  The weighted mass, averaged by the basis functions and
normalised, plus the weighted augmented Lagrangian of the excess stress. -/
theorem C103_value {e : Nat → List Nat} (he : ∀ k, IsSchedule (e k) (M.size (M.part k))) {S : List (List ℝ)}
    {z x : List ℝ} (hS : ∀ u ∈ S, u.length = M.nn * M.ndof) (hz : z.length = M.nn) (hx : x.length = M.nn * M.dim)
    {sv : Sched} {w : Nat} (hsv : sv.Ok M S.length w) (hsum : ∑ i ∈ range M.npc, at0 basis i = 1) (dt : ℝ) :
    physicsValue M (generalEval abs Real.sqrt id id Plato.simp P basis G e) Post.none sv S z x dt =
      .ok (∑ k ∈ range M.domains.length, ∑ t ∈ range S.length, ∑ c ∈ range (M.size (M.part k)),
        ((G k).massWeight * ((∑ j ∈ range M.npc, at0 basis j * M.cellZ z (gcell (M.part k) c) j) * (G k).density *
            (meshVolume M x (gcell (M.part k) c) * (P k).cubWeight) / (G k).norm) +
          (G k).stressWeight * (1 / (M.size (M.part k) : ℝ) * (at0 (G k).base.lam c *
            (Plato.simp (G k).base.simp (meanDensity M.npc (M.cellZ z (gcell (M.part k) c))) *
              excess4 (cellOver M P (G k) k (S[t]?.getD []) x c)) + 1 / 2 * (G k).base.penalty *
            (Plato.simp (G k).base.simp (meanDensity M.npc (M.cellZ z (gcell (M.part k) c))) *
              excess4 (cellOver M P (G k) k (S[t]?.getD []) x c)) ^ 2)))) := by
  rw [value_of_cellForm hM (general_computes h hb hG he dt) (general_local h) hS hz hx hsv Post.none]
  simp only [Post.none]
  refine congrArg Res.ok (sum_congr rfl fun k hk => sum_congr rfl fun t _ => sum_congr rfl fun c _ => ?_)
  have hk' := mem_range.1 hk
  have hd := h.d k hk'
  have hnp : (P k).d + 1 = M.npc := by rw [FeModel.npc, hd]
  unfold genForm lagrangian cellOver meshVolume
  rw [generalConstraint_real, List.map_id, hnp, massForm_sum hsum]
  unfold Elastostatic.volForm
  rw [hd]
  simp only [id]
  ring

/-- **C103**: with the stress within the limit in every cell only the mass is left, whatever the multipliers. -/
theorem C103_within {e : Nat → List Nat} (he : ∀ k, IsSchedule (e k) (M.size (M.part k))) {S : List (List ℝ)}
    {z x : List ℝ} (hS : ∀ u ∈ S, u.length = M.nn * M.ndof) (hz : z.length = M.nn) (hx : x.length = M.nn * M.dim)
    {sv : Sched} {w : Nat} (hsv : sv.Ok M S.length w) (hsum : ∑ i ∈ range M.npc, at0 basis i = 1) (dt : ℝ)
    (hin : ∀ k c, ∀ u ∈ S, k < M.domains.length → c < M.size (M.part k) → cellOver M P (G k) k u x c ≤ 1) :
    physicsValue M (generalEval abs Real.sqrt id id Plato.simp P basis G e) Post.none sv S z x dt =
      .ok (∑ k ∈ range M.domains.length, ∑ _t ∈ range S.length, ∑ c ∈ range (M.size (M.part k)),
        (G k).massWeight * ((∑ j ∈ range M.npc, at0 basis j * M.cellZ z (gcell (M.part k) c) j) * (G k).density *
            (meshVolume M x (gcell (M.part k) c) * (P k).cubWeight) / (G k).norm)) := by
  rw [C103_value hM h hb hG he hS hz hx hsv hsum dt]
  refine congrArg Res.ok (sum_congr rfl fun k hk => sum_congr rfl fun t ht => sum_congr rfl fun c hc => ?_)
  have : excess4 (cellOver M P (G k) k (S[t]?.getD []) x c) = 0 := by
    refine if_neg (not_lt.2 ?_)
    rw [List.getElem?_eq_getElem (mem_range.1 ht)]
    exact hin k c _ (List.getElem_mem _) (mem_range.1 hk) (mem_range.1 hc)
  rw [this]
  ring

end Value

/-! ## The gradients -/

section Gradients
variable {M : FeModel} {P : Nat → Elastostatic ℝ} (h : MechOk M P) {penF : Nat → Fad → Fad} {basis : List ℝ}
  (hb : basis.length = M.npc)

/-- What the criterion needs from a cell. -/
def goodGen (M : FeModel) (G : Nat → General) (Z : Nat → ℝ) (X : Nat → Nat → ℝ) : Prop :=
  goodAug M (fun k => (G k).base) Z X

include h hb

theorem general_tracks {E : Type} [NormedAddCommGroup E] [NormedSpace ℝ E] {G : Nat → General}
    (hG : ∀ k, k < M.domains.length → M.size (M.part k) ≤ (G k).base.lam.length)
    (hlim : ∀ k, k < M.domains.length → 0 < (G k).base.limit) (hnorm : ∀ k, k < M.domains.length → (G k).norm ≠ 0)
    {B : Nat → General} (hB : ∀ k, k < M.domains.length → B k = G k) {eR eF : Nat → List Nat}
    (heR : ∀ k, IsSchedule (eR k) (M.size (M.part k))) (heF : ∀ k, IsSchedule (eF k) (M.size (M.part k)))
    (dt : ℝ) (x : E) :
    CritTracks M (generalEval abs Real.sqrt id id Plato.simp P basis G eR)
      (generalEval Fad.fabs sqrtFad Fad.val Fad.const simpFad (fun k => (P k).lift (penF k)) basis B eF)
      (fun _ Z X => goodGen M G Z X) dt x := by
  intro k N L sF zF xF sR zR xR hk pF pR hs hz hx hg
  have hBl : ∀ k, k < M.domains.length → M.size (M.part k) ≤ (B k).base.lam.length := fun k hk => by
    rw [hB k hk]; exact hG k hk
  obtain ⟨rF, e1, l1, q1⟩ := general_computes_fad h hb hBl (penF := penF) heF dt k sF zF xF hk pF
  have := fun y => general_computes h hb hG heR dt k (sR y) (zR y) (xR y) hk (pR y)
  choose rR e2 l2 using this
  refine ⟨rF, rR, e1, e2, l1, fun y => (l2 y).1, fun c hc => ?_⟩
  have hd := h.d k hk
  have hnp : M.npc = (P k).d + 1 := by rw [FeModel.npc, hd]
  have hdet : detForm (P k).d ((xR x).e c) ≠ 0 := by rw [hd]; exact (hg c hc).1
  have hX : ∀ n i, n < (P k).d + 1 → i < (P k).d → Tracks (L c) N x (xF.e c n i) fun y => (xR y).e c n i :=
    fun n i hn hi => hx c n i hc (by omega) (by omega)
  have hZ : ∀ n, n < (P k).d + 1 → Tracks (L c) N x (zF.e c n) fun y => (zR y).e c n :=
    fun n hn => hz c n hc (by omega)
  have hσ : ∀ t, t < numVoigt (P k).d → Tracks (L c) N x
      (((P k).lift (penF k)).solidStress (sF.e c) (xF.e c) t) fun y => (P k).solidStress ((sR y).e c) ((xR y).e c) t :=
    fun t _ => solidStress_tracks (h.d3 hk) (fun l hl => hs c l hc (by rw [hnp, h.ndof, ← hd]; exact hl)) hX hdet t
  have hρ : Tracks (L c) N x (simpFad (G k).base.simp (meanDensity ((P k).d + 1) (zF.e c)))
      fun y => Plato.simp (G k).base.simp (meanDensity ((P k).d + 1) ((zR y).e c)) := by
    refine (simp_penOk (G k).base.simp ?_).tracks (meanDensity_tracks (Nat.succ_ne_zero _) hZ)
    have := (hg c hc).2 k hk
    rw [hd]
    exact this
  have hone : Tracks (L c) N x (1 : Fad) fun _ => 1 := Tracks.const 1
  have hcon := (vonMises_tracks (1 / 2) (h.d3 hk) (hlim k hk) hσ hρ).add
    ((vonMises_tracks (1 / 2) (h.d3 hk) (hlim k hk) hσ hρ).mul (vonMises_tracks (1 / 2) (h.d3 hk) (hlim k hk) hσ hone))
  have hmass : Tracks (L c) N x (massForm ((P k).d + 1) (basis.map Fad.const) (zF.e c))
      fun y => massForm ((P k).d + 1) (basis.map id) ((zR y).e c) := by
    have hbas : ∀ i, at0 (basis.map Fad.const) i = Fad.const (at0 basis i) := by
      intro i
      unfold at0
      rw [List.getElem?_map]
      cases basis[i]? <;> rfl
    refine Tracks.sum _ fun i _ => Tracks.sum _ fun j hj => ?_
    rw [hbas, hbas, List.map_id]
    exact ((Tracks.const _).mul (Tracks.const _)).mul (hZ j (mem_range.1 hj))
  have hvol : Tracks (L c) N x (((P k).lift (penF k)).volForm Fad.fabs (xF.e c))
      fun y => (P k).volForm abs ((xR y).e c) :=
    ((detForm_tracks (h.d3 hk) hX).fabs hdet).mul (Tracks.const _)
  rw [q1 c hc]
  dsimp only
  rw [hB k hk]
  have := ((Tracks.const (L := L c) (N := N) (x := x) (G k).massWeight).mul
      (((hmass.mul (Tracks.const (G k).density)).mul hvol).div (Tracks.const (G k).norm) (hnorm k hk))).add
    ((Tracks.const (L := L c) (N := N) (x := x) (G k).stressWeight).mul
      (lagrangian_tracks (G k).base (M.size (M.part k)) c hcon))
  unfold genForm
  rw [generalConstraint_eq]
  refine Tracks.congr this ?_
  funext y
  rw [(l2 y).2 c hc]
  dsimp only
  unfold genForm
  rw [generalConstraint_eq]
  rfl

variable (hM : M.Ok)
include hM

/-- The criterion with its four evaluators. -/
noncomputable def generalCriterion (M : FeModel) (P : Nat → Elastostatic ℝ) (penF : Nat → Fad → Fad) (basis : List ℝ)
    (F : Nat → GenCopies) (eR eX eU eZ : Nat → List Nat) (sv sx su sz : Sched) : Criterion :=
  physicsCriterion M (generalEval abs Real.sqrt id id Plato.simp P basis (fun k => (F k).value) eR)
    (generalEval Fad.fabs sqrtFad Fad.val Fad.const simpFad (fun k => (P k).lift (penF k)) basis (fun k => (F k).gradX) eX)
    (generalEval Fad.fabs sqrtFad Fad.val Fad.const simpFad (fun k => (P k).lift (penF k)) basis (fun k => (F k).gradU) eU)
    (generalEval Fad.fabs sqrtFad Fad.val Fad.const simpFad (fun k => (P k).lift (penF k)) basis (fun k => (F k).gradZ) eZ)
    Post.none sv sx su sz

/-- **C103**: after any history of updates the three gradients of the criterion are the derivatives of its
value.  Zero stress needs no exception, nor does stress at the limit. -/
theorem C103_gradients {S : List (List ℝ)} {z : Fin M.nn → ℝ} {x : Fin (M.nn * M.dim) → ℝ}
    {u : Fin (M.nn * M.ndof) → ℝ} {j : Nat} {dt : ℝ} {sv sx su sz : Sched} {wv : Nat}
    (hsize : ∀ k, k < M.domains.length → M.size (M.part k) ≤ M.nc) {eR eX eU eZ : Nat → List Nat}
    (heR : ∀ k, IsSchedule (eR k) (M.size (M.part k))) (heX : ∀ k, IsSchedule (eX k) (M.size (M.part k)))
    (heU : ∀ k, IsSchedule (eU k) (M.size (M.part k))) (heZ : ∀ k, IsSchedule (eZ k) (M.size (M.part k)))
    {x0 : List ℝ} (hx0 : x0.length = M.nn * M.dim) (l : List (UpdateSched × List ℝ × List ℝ))
    (hl : ∀ c ∈ l, CallOk M c) {F : Nat → GenCopies} (hF : GenAgree M F)
    (hok : ∀ k, k < M.domains.length → (F k).value.base.Ok M.nc)
    (hlim : ∀ k, k < M.domains.length → 0 < (F k).value.base.limit)
    (hnorm : ∀ k, k < M.domains.length → (F k).value.norm ≠ 0)
    (hj : S[j]? = some (List.ofFn u)) (hS : ∀ u ∈ S, u.length = M.nn * M.ndof)
    (hgood : ∀ c, c < M.nc → goodGen M (fun k => (F k).value) (M.cellZ (List.ofFn z) c) (M.cellX (List.ofFn x) c))
    (hsv : sv.Ok M S.length wv) (hsx : sx.Ok M S.length (M.npc * M.dim)) (hsu : su.Ok M 1 (M.npc * M.ndof))
    (hsz : sz.Ok M S.length (M.npc * 1)) :
    (genUpdates M P x0 l F).Sat fun F' =>
      Differentiates (generalCriterion M P penF basis F' eR eX eU eZ sv sx su sz)
        (M.nn * M.dim) (M.nn * M.ndof) M.nn S z x j u dt := by
  refine (C103_history hM h hx0 hsize l hl hF hok).mono ?_
  rintro F' ⟨hag, hF'⟩
  have hA : ∀ k, k < M.domains.length → M.size (M.part k) ≤ (F' k).value.base.lam.length := fun k hk => by
    rw [(hF' k hk).1.size]; exact hsize k hk
  have hlim' : ∀ k, k < M.domains.length → 0 < (F' k).value.base.limit := fun k hk => by
    rw [(hF' k hk).2.1.2.1]; exact hlim k hk
  have hnorm' : ∀ k, k < M.domains.length → (F' k).value.norm ≠ 0 := fun k hk => by
    rw [(hF' k hk).2.2.1.2.2.2]; exact hnorm k hk
  have hloc : CritLocal M fun _ Z X => goodGen M (fun k => (F' k).value) Z X := by
    intro U U' Z Z' X X' _ hZ hX hg
    refine ⟨?_, ?_⟩
    · rw [← detForm_congr h.dim hX]
      exact hg.1
    · rw [← meanDensity_congr (npc := M.dim + 1) hZ]
      exact hg.2
  refine C51_differentiates hM hloc hj hS
    (general_tracks h hb hA hlim' hnorm' (fun k hk => (hag k hk).2.2) heR heX dt _)
    (general_tracks h hb hA hlim' hnorm' (fun k hk => (hag k hk).1) heR heU dt _)
    (general_tracks h hb hA hlim' hnorm' (fun k hk => (hag k hk).2.1) heR heZ dt _) ?_ hsv hsx hsu hsz (.inr rfl)
    fun m v _ _ => Post.none_ok m v
  intro _ _ c hc
  refine ⟨(hgood c hc).1, fun k hk => ?_⟩
  show _ ∨ 1 ≤ (F' k).value.base.simp.penalty
  rw [(hF' k hk).2.1.1]
  exact (hgood c hc).2 k hk

end Gradients

end Plato.Crit
