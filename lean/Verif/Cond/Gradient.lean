import Verif.Cond.Sweep

/-!
# C85: the gradient by the control is the derivative of the criterion along the tangents
-/

namespace Plato.Cond
open Finset Plato Plato.Mech Plato.J2 Plato.Plast

/-- What the equations, the projection and the criterion return for the states of the `n` steps. -/
structure Hist (M : FeModel) (nl : Nat) (E : Eqs) (C : Cri) (P : ProjEq) (off n : Nat) (FS : Nat → FState)
    (fZ : Nat → Res (V2 ℝ)) (Q : Nat → Step) : Prop where
  step : ∀ k, k < n → (FS k).step = k
  jac : ∀ k, k < n → Jacs M nl E (FS k).g (FS k).step (Q k).L
  lead : ∀ k, k < n → ∀ c, c < M.nc → ∀ m, m ≤ nl → blas3.Leading ((Q k).L.HC c) m
  cri : ∀ k, k < n → CriOk M nl C (FS k) (Q k).F
  next : ∀ k, k + 1 < n → NextOk M nl E C P (FS k) (FS (k + 1)) (Q (k + 1)).N
  proj : ∀ k, k < n → k ≠ 0 → ProjStepOk M E P off (FS k) (Q k)
  control : ∀ k, k < n → ControlOk M nl E P (FS k) (Q k)
  fZ : ∀ k, k < n → (fZ k).Sat (Is2 M.nc M.npc (Q k).fZ)

theorem zeroAdj_ok (M : FeModel) (nl : Nat) : (zeroAdj M nl).Ok M nl :=
  ⟨List.length_replicate, List.length_replicate, List.length_replicate⟩

/-- Only the entries of the adjoints that exist are read. -/
theorem carried_congr {M : FeModel} (hM : M.Ok) {nl off : Nat} {N : NextLin} {a b : Adj}
    (h1 : ∀ q, q < M.nn * M.ndof → at0 a.lam q = at0 b.lam q) (h2 : ∀ q, q < M.nc * nl → at0 a.mu q = at0 b.mu q)
    (h3 : ∀ q, q < M.nn * M.dim → at0 a.gam q = at0 b.gam q) (du : Nat → ℝ) (dc : Nat × Nat → ℝ) :
    carried M nl off N a du dc = carried M nl off N b du dc := by
  have l1 : ∀ c, c < M.nc → ∀ q ∈ range (ng M), at0 a.lam (dof M c q) = at0 b.lam (dof M c q) := fun c hc q hq =>
    h1 _ (hM.mesh.dof_lt hc (mem_range.1 hq))
  have l2 : ∀ c, c < M.nc → ∀ q ∈ range nl, at0 a.mu (c * nl + q) = at0 b.mu (c * nl + q) := fun c hc q hq => by
    refine h2 _ ?_
    have := mem_range.1 hq
    calc c * nl + q < c * nl + nl := by omega
      _ = (c + 1) * nl := by ring
      _ ≤ M.nc * nl := Nat.mul_le_mul_right _ hc
  have l3 : ∀ c, c < M.nc → ∀ q ∈ range (M.npc * M.dim), at0 a.gam (pdof M c q) = at0 b.gam (pdof M c q) := fun c hc q hq =>
    h3 _ (hM.mesh.dof_lt hc (mem_range.1 hq))
  have m1 : ∀ c, c < M.nc → ∀ X : Nat → ℝ, ∑ q ∈ range (ng M), X q * at0 a.lam (dof M c q) =
      ∑ q ∈ range (ng M), X q * at0 b.lam (dof M c q) := fun c hc X => sum_congr rfl fun q hq => by rw [l1 c hc q hq]
  have m2 : ∀ c, c < M.nc → ∀ X : Nat → ℝ, ∑ q ∈ range nl, X q * at0 a.mu (c * nl + q) =
      ∑ q ∈ range nl, X q * at0 b.mu (c * nl + q) := fun c hc X => sum_congr rfl fun q hq => by rw [l2 c hc q hq]
  have m3 : ∀ c, c < M.nc → ∀ X : Nat → ℝ, ∑ q ∈ range (M.npc * M.dim), X q * at0 a.gam (pdof M c q) =
      ∑ q ∈ range (M.npc * M.dim), X q * at0 b.gam (pdof M c q) := fun c hc X => sum_congr rfl fun q hq => by rw [l3 c hc q hq]
  unfold carried
  refine sum_congr rfl fun c hc => ?_
  have hc := mem_range.1 hc
  congr 1
  · refine sum_congr rfl fun l _ => ?_
    congr 1
    unfold nextU
    rw [m1 c hc fun q => N.RUp c q l, m2 c hc fun q => N.HUp c q l, m3 c hc fun q => N.PN c q (l / M.ndof)]
  · refine sum_congr rfl fun l _ => ?_
    congr 1
    unfold nextC
    rw [m2 c hc fun q => N.HCp c q l, m1 c hc fun q => N.RCp c q l]

section
variable {M : FeModel} (hM : M.Ok) (hG : Graph M) (hnc : 0 < M.nc) {nl : Nat} (hnl : 0 < nl) {E : Eqs} {C : Cri} {P : ProjEq}
  {off n : Nat} (hoff : off < M.ndof) {FS : Nat → FState} {fZ : Nat → Res (V2 ℝ)} {Q : Nat → Step}
  (hH : Hist M nl E C P off n FS fZ Q) {Sk : Nat → Sched} (hS : ∀ k, k < n → (Sk k).Ok2 M nl)
  {ls : Crs ℝ → List ℝ → List ℝ → Res (List ℝ)} (hls : Solver ls) {D : Bcs} (hD : D.Ok M)
  {du : Nat → Nat → ℝ} {dc : Nat → Nat × Nat → ℝ} {dn : Nat → Nat → ℝ} {dz : Nat → ℝ}
  (hT : Tangent M nl off D.dofs n Q du dc dn dz)

/-- What holds after the steps from `k` on have been treated. -/
structure Inv (M : FeModel) (nl off n : Nat) (Q : Nat → Step) (du : Nat → Nat → ℝ) (dc : Nat → Nat × Nat → ℝ) (dz : Nat → ℝ)
    (k : Nat) (s : Sweep) : Prop where
  cur : s.cur.Ok M nl
  prev : s.prev.Ok M nl
  inv : s.inv.d0 = M.nc ∧ s.inv.d1 = nl ∧ s.inv.d2 = nl
  grad : s.grad.length = M.nn
  sum : ∑ j ∈ Ico k n, (criterionAlong M nl Q du dc dz j - ∑ q ∈ range (M.nn * 1), scatteredVec M.npc 1 M.c2n none M.nc (Q j).fZ q * dz q) =
    (if k < n then carried M nl off (Q k).N s.cur (before du k) (before dc k) else 0) + ∑ q ∈ range (M.nn * 1), at0 s.grad q * dz q

include hM hG hnc hnl hoff hH hS hls hD hT

theorem sweepStep_inv {k : Nat} (hk : k < n) {s : Sweep} (hs : Inv M nl off n Q du dc dz (k + 1) s) :
    Post (sweepStep M nl E (Sk k) C P (n - 1) off .control ls D (FS k) (FS (k + 1)) s) (Inv M nl off n Q du dc dz k) := by
  have hSk := hS k hk
  have hstep := hH.step k hk
  unfold sweepStep
  refine Post.bind (Post.of (copyAdjoint_ok hM hnc hnl hSk hs.cur hs.prev)) ?_
  rintro b ⟨hb, b1, b2, b3⟩
  refine Post.bind (Post.of (C84_adjoint_step hM hnc hnl hSk.ok (hH.jac k hk) (hH.cri k hk) (P := P) (N := (Q (k + 1)).N)
    (B := FS (k + 1)) (last := n - 1) (fun h => hH.next k (by omega)) hb hoff hs.inv (hH.lead k hk))) ?_
  rintro ⟨inv, K, f⟩ ⟨K0, K1, K2, f0, Kr, hinv, hloc⟩
  dsimp only at K0 K1 K2 f0 Kr hinv hloc ⊢
  have hK := C09_created K0 K1 K2 Kr hG.nodup hG.symm
  refine Post.bind (globalAdjoint_ok hSk.ok hls hD hK f0 hs.cur.lam) ?_
  rintro lam ⟨lam0, lam1, lam2⟩
  refine Post.bind (Post.of (hloc lam s.cur.mu lam0 hs.cur.mu)) ?_
  rintro mu ⟨mu0, mu1, mu2⟩
  refine Post.bind (Post.of (projAdjoint_ok (Q := Q k) hM hnc hnl hSk hoff (fun h => hH.proj k hk (by omega)) lam0 hs.cur.gam)) ?_
  rintro gam ⟨gam0, gam1, gam2⟩
  show Post (addPdeZ M nl E (Sk k) P (FS k) ⟨lam, mu, gam⟩ s.grad >>= _) _
  have ha : Adj.Ok M nl ⟨lam, mu, gam⟩ := ⟨lam0, mu0, gam0⟩
  refine Post.bind (Post.of (addPdeZ_ok hM hnc hnl hSk (hH.control k hk) ha hs.grad)) ?_
  rintro g ⟨g0, g1⟩
  refine Post.ok ⟨ha, hb, hinv, g0, ?_⟩
  dsimp only
  have key := step_identity hM hoff hT hk (last := n - 1) hstep (b := b) (a := ⟨lam, mu, gam⟩) (N' := (Q (k + 1)).N) mu1
    (fun q hq hn => by rw [mu2 q hq, lam2 q hq hn, sub_self]) lam1 (fun h => gam1 (hstep.trans h))
    (fun h => gam2 (by rw [hstep]; exact h))
  rw [sum_eq_sum_Ico_succ_bot hk, if_pos hk, hs.sum]
  have hcar : (if k + 1 < n then carried M nl off (Q (k + 1)).N s.cur (before du (k + 1)) (before dc (k + 1)) else 0) =
      if k ≠ n - 1 then carried M nl off (Q (k + 1)).N b (du k) (dc k) else 0 := by
    by_cases h : k + 1 < n
    · rw [if_pos h, if_pos (by omega)]
      rw [carried_congr hM (fun q hq => (b1 q hq).symm) (fun q hq => (b2 q hq).symm) (fun q hq => (b3 q hq).symm)]
      rfl
    · rw [if_neg h, if_neg (by omega)]
  rw [hcar]
  have hgrad : ∑ q ∈ range (M.nn * 1), at0 g q * dz q = ∑ q ∈ range (M.nn * 1), at0 s.grad q * dz q +
      ∑ q ∈ range (M.nn * 1), scatteredVec M.npc 1 M.c2n none M.nc (fun c m =>
        ∑ l ∈ range (ng M), (Q k).RZ c l m * at0 lam (dof M c l) +
        ∑ l ∈ range (M.npc * M.dim), (Q k).PZ c l m * at0 gam (pdof M c l) +
        ∑ j ∈ range nl, (Q k).HZ c j m * at0 mu (c * nl + j)) q * dz q := by
    rw [← sum_add_distrib]
    refine sum_congr rfl fun q hq => ?_
    rw [g1 q (by have := mem_range.1 hq; omega), add_mul]
  rw [hgrad]
  simp only [add_mul, sum_add_distrib] at key ⊢
  linarith

theorem backward_inv {m : Nat} (hm : m ≤ n) {s : Sweep} (hs : Inv M nl off n Q du dc dz m s) :
    Post (((List.range m).reverse).foldlM (fun s k => sweepStep M nl E (Sk k) C P (n - 1) off .control ls D (FS k) (FS (k + 1)) s) s)
      (Inv M nl off n Q du dc dz 0) := by
  induction m generalizing s with
  | zero => exact Post.ok hs
  | succ m ih =>
    rw [List.range_succ, List.reverse_append, List.reverse_singleton, List.singleton_append, List.foldlM_cons]
    exact Post.bind (sweepStep_inv hM hG hnc hnl hoff hH hS hls hD hT hm hs) fun s' hs' => ih (by omega) hs'

omit hG hnl hoff hls hD hT in
theorem addCriterionZ_ok {m : Nat} (hm : m ≤ n) {g : List ℝ} (hg : g.length = M.nn) :
    (addCriterionZ M Sk m fZ g).Sat fun g' => g'.length = M.nn ∧ ∀ q, q < M.nn →
      at0 g' q = at0 g q + ∑ k ∈ range m, scatteredVec M.npc 1 M.c2n none M.nc (Q k).fZ q := by
  induction m with
  | zero => exact Res.Sat.ok ⟨hg, fun q _ => by rw [range_zero, sum_empty, add_zero]⟩
  | succ m ih =>
    have ih' := ih (by omega)
    unfold addCriterionZ at ih' ⊢
    rw [List.range_succ, List.foldlM_append]
    refine Res.Sat.bind ih' ?_
    rintro v ⟨v0, v1⟩
    rw [List.foldlM_cons]
    have hstep : (do
        let w ← fZ m
        assembleResidual M.npc 1 M.c2n none M.nc (V2.view w) (Sk m).grad v : Res (List ℝ)).Sat fun g' => g'.length = M.nn ∧
          ∀ q, q < M.nn → at0 g' q = at0 g q + ∑ k ∈ range (m + 1), scatteredVec M.npc 1 M.c2n none M.nc (Q k).fZ q := by
      refine Res.Sat.bind (hH.fZ m hm) ?_
      rintro w ⟨w0, w1, w2⟩
      refine (C08_assembleResidual (ws := V2.view w) hM.mesh (domOk_none _) (d := 1) (by omega) w0.ge
        (by rw [Nat.mul_one]; exact w1.ge) (hS m hm).grad).mono ?_
      rintro y ⟨y0, y1⟩
      refine ⟨by omega, fun q hq => ?_⟩
      rw [y1 q, v1 q hq, sum_range_succ, add_assoc]
      congr 2
      exact scatteredVec_congr (fun c m hc hm => w2 c m hc (by rwa [Nat.mul_one] at hm)) q
    refine Res.Sat.bind hstep fun y hy => ?_
    exact Res.Sat.ok hy

/-- **C85**: the vector that `criterionGradient` returns, times a direction of the control, is the derivative of the
criterion along the tangents of the states in that direction.  `PZ` in the tangents is the derivative of the projection
that the code evaluates, with the pressure of the same step; the equation holds with the pressure of the step before. -/
theorem C85_gradient_partial : Post (criterionGradientZ M nl E C P off ls D Sk n FS fZ) fun g => g.length = M.nn ∧
    ∑ q ∈ range M.nn, at0 g q * dz q = ∑ k ∈ range n, criterionAlong M nl Q du dc dz k := by
  unfold criterionGradientZ backward
  have h0 : Inv M nl off n Q du dc dz n ⟨zeroAdj M nl, zeroAdj M nl, zero3 M nl nl, List.replicate M.nn 0⟩ := by
    refine ⟨zeroAdj_ok M nl, zeroAdj_ok M nl, ⟨rfl, rfl, rfl⟩, List.length_replicate, ?_⟩
    rw [Ico_self, sum_empty, if_neg (lt_irrefl n), zero_add, sum_eq_zero]
    intro q _
    rw [Crit.at0_replicate, zero_mul]
  refine Post.bind (backward_inv hM hG hnc hnl hoff hH hS hls hD hT le_rfl h0) ?_
  intro s hs
  refine (Post.of (addCriterionZ_ok hM hnc hH hS le_rfl hs.grad)).mono ?_
  rintro g ⟨g0, g1⟩
  refine ⟨g0, ?_⟩
  have hc0 : (if 0 < n then carried M nl off (Q 0).N s.cur (before du 0) (before dc 0) else 0) = 0 := by
    split_ifs
    · unfold carried before
      simp
    · rfl
  have h := hs.sum
  rw [hc0, zero_add, Nat.Ico_zero_eq_range, sum_sub_distrib, Nat.mul_one] at h
  rw [sum_congr rfl fun q hq => by rw [g1 q (mem_range.1 hq), add_mul], sum_add_distrib, ← h]
  have e : ∑ q ∈ range M.nn, (∑ k ∈ range n, scatteredVec M.npc 1 M.c2n none M.nc (Q k).fZ q) * dz q =
      ∑ j ∈ range n, ∑ q ∈ range M.nn, scatteredVec M.npc 1 M.c2n none M.nc (Q j).fZ q * dz q := by
    rw [sum_comm]
    exact sum_congr rfl fun q _ => by rw [sum_mul]
  rw [e]
  ring

end
end Plato.Cond
