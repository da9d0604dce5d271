import Verif.Plast.Projection
import Verif.Mech.Rows

/-!
# C75: the projected gradient is a weighted mean of the gradients of the cells around a node
-/

namespace Plato.Plast
open Finset Plato Plato.Mech Plato.Thermal Plato.Dyn

/-! ## Solving with the row sums -/

/-- Entry `q` of the result is that of the right hand side divided by the sum of row `q`. -/
theorem rowSummed_ok {A : Crs ℝ} {nb n : Nat} (hA : A.WF nb nb) (hr : A.rpb = n) (hc : A.cpb = n) {x b : List ℝ}
    (hx : x.length = nb * n) (hb : b.length = nb * n) {order : List Nat} (ho : IsSchedule order nb) :
    (rowSummed n order A x b).Sat fun y => y.length = nb * n ∧
      ∀ q, q < nb * n → at0 y q = at0 b q / ∑ j ∈ range (nb * n), A.dense q j := by
  have hn : 0 < n := hr ▸ hA.rpb_pos
  let S : Nat → ℝ := fun v => ∑ k ∈ Ico (atN A.rowMap (v / n)) (atN A.rowMap (v / n + 1)), blockRowSum A k (v % n)
  unfold rowSummed
  refine Res.Sat.bind (parFor_sched ho (fun D (s : List ℝ × List ℝ) => s.1.length = nb * n ∧ s.2.length = nb * n ∧
    (∀ v, at0 s.1 v = if v / n ∈ D then S v else 0) ∧
    ∀ v, v < nb * n → v / n ∈ D → at0 s.2 v = at0 b v / S v) ?_ ?_) ?_
  · refine ⟨by simp [hx], hx, fun v => ?_, fun v _ h => absurd h (notMem_empty _)⟩
    rw [if_neg (notMem_empty _), at0, List.getElem?_replicate]
    split_ifs <;> rfl
  · rintro D i ⟨s, y⟩ hi hD - ⟨h1, h2, h3, h4⟩
    dsimp only at h1 h2 h3 h4 ⊢
    refine Res.Sat.bind (rowSumRow_sat hA s (by rw [h1, hr]) hi) ?_
    rintro s' ⟨k1, k2⟩
    rw [hr] at k2
    unfold inverseWeightRow
    refine Res.Sat.bind (forRange_inv (fun j (y' : List ℝ) => y'.length = nb * n ∧
      ∀ v, at0 y' v = if i * n ≤ v ∧ v < i * n + j then at0 b v / at0 s' v * 1 else at0 y v) (Nat.zero_le _) ?_ ?_) ?_
    · exact ⟨h2, fun v => by rw [if_neg (by omega)]⟩
    · rintro j y' - hj ⟨g1, g2⟩
      have hlt : i * n + j < nb * n := by rw [Nat.mul_comm i]; exact block_lt hj hi
      dsimp only
      rw [rd_at0 (by omega), Res.ok_bind, rd_at0 (by omega), Res.ok_bind, wr_eq (by omega), Res.sat_ok]
      refine ⟨by rw [List.length_set]; exact g1, fun v => ?_⟩
      rw [at0_set (by omega)]
      split_ifs with a1 a2 a3
      · rw [a1]
      · omega
      · rw [g2, if_pos (by omega)]
      · rw [g2, if_neg (by omega)]
    · rintro y' ⟨g1, g2⟩
      rw [Res.pure_eq, Res.sat_ok]
      have hdiv : ∀ v, (i * n ≤ v ∧ v < i * n + n) ↔ v / n = i := by
        intro v
        constructor
        · rintro ⟨a1, a2⟩
          refine Nat.div_eq_of_lt_le a1 ?_
          rw [Nat.add_mul, one_mul]; exact a2
        · rintro rfl
          have e1 := Nat.div_add_mod v n
          have e2 := Nat.mod_lt v hn
          rw [Nat.mul_comm] at e1
          omega
      have hs : ∀ v, at0 s' v = if v / n ∈ insert i D then S v else 0 := by
        intro v
        rw [k2 v, h3 v]
        by_cases hv : v / n = i
        · rw [if_neg (by rw [hv]; exact hD), if_pos hv, if_pos (by rw [hv]; exact mem_insert_self _ _), zero_add]
          simp only [S, hv]
        · rw [if_neg hv, add_zero]
          simp only [mem_insert, hv, false_or]
      refine ⟨k1.trans h1, g1, hs, fun v hv hm => ?_⟩
      dsimp only
      rw [g2 v]
      by_cases hvi : v / n = i
      · rw [if_pos ((hdiv v).2 hvi), hs v, if_pos hm, mul_one]
      · rw [if_neg (fun h => hvi ((hdiv v).1 h))]
        exact h4 v hv ((mem_insert.1 hm).resolve_left hvi)
  · rintro ⟨s, y⟩ ⟨-, h2, -, h4⟩
    rw [Res.pure_eq, Res.sat_ok]
    refine ⟨h2, fun q hq => ?_⟩
    have e := dense_rowSum_eq hA (i := q) (by rw [hr]; exact hq)
    rw [hr, hc] at e
    rw [e]
    exact h4 q hq (mem_range.2 (Nat.div_lt_of_lt_mul (by rwa [Nat.mul_comm] at hq)))

/-! ## The evaluator -/

/-- The residuals fit the mesh. -/
structure ProjOk (M : FeModel) (P : Nat → Proj ℝ) : Prop where
  dim : M.dim = 1 ∨ M.dim = 2 ∨ M.dim = 3
  ndof : M.ndof = M.dim
  d : ∀ k, k < M.domains.length → (P k).d = M.dim
  basis : ∀ k, k < M.domains.length → (P k).basis.length = M.dim + 1

section Congr
variable {R : Type} [CommRing R] [Div R] {P : Proj R}

theorem Proj.row_congr (hd : P.d = 1 ∨ P.d = 2 ∨ P.d = 3) (fabs : R → R) {U U' p p' Z Z' : Nat → R} {X X' : Nat → Nat → R}
    (hU : ∀ l, l < (P.d + 1) * P.d → U l = U' l) (hp : ∀ n, n < P.d + 1 → p n = p' n)
    (hZ : ∀ n, n < P.d + 1 → Z n = Z' n) (hX : ∀ a i, a < P.d + 1 → i < P.d → X a i = X' a i) :
    P.row fabs U p Z X = P.row fabs U' p' Z' X' := by
  have e1 : ∀ i, i < P.d → P.at U i = P.at U' i := fun i hi => by
    unfold Proj.at interp
    refine sum_congr rfl fun n hn => ?_
    have := dof_lt (ndof := P.d) (mem_range.1 hn) hi
    dsimp only
    rw [hU _ (by rw [Nat.mul_comm P.d n]; omega)]
  have e2 : ∀ i, i < P.d → P.slope p X i = P.slope p' X' i := fun i hi => by
    unfold Proj.slope scalarField
    congr 1
    refine sum_congr rfl fun n hn => ?_
    rw [hp n (mem_range.1 hn), gradForm_congr hd hX hi]
  unfold Proj.row
  rw [meanDensity_congr hZ, detForm_congr hd hX]
  congr 1
  · exact sum_congr rfl fun n _ => sum_congr rfl fun i hi => by rw [e1 i (mem_range.1 hi)]
  · exact sum_congr rfl fun n _ => sum_congr rfl fun i hi => by rw [e2 i (mem_range.1 hi)]

end Congr

section Row
variable {R : Type} [CommRing R] [Div R] {M : FeModel} (hM : M.Ok) {P : Nat → Proj R} {press : List ℝ}
  (hp : press.length = M.nn) {sn se : Nat → List Nat} (hsn : ∀ k, IsSchedule (sn k) (M.size (M.part k)))
  (hse : ∀ k, IsSchedule (se k) (M.size (M.part k)))
include hM hp hsn hse

theorem projEv_row (fabs : R → R) (mkN : Nat → ℝ → R) (hdim : M.dim = 1 ∨ M.dim = 2 ∨ M.dim = 3) (hndof : M.ndof = M.dim)
    (hd : ∀ k, k < M.domains.length → (P k).d = M.dim)
    (hb : ∀ k, k < M.domains.length → (P k).basis.length = M.dim + 1) :
    RowEv M (projEv fabs M P mkN press sn se) fun k c S Z X =>
      (P k).row fabs S (fun n => mkN n (M.cellZ press (gcell (M.part k) c) n)) Z X := by
  have hws : ∀ k, (workset mkN M.npc 1 M.c2n (M.part k) press (sn k) ⟨M.size (M.part k), M.npc, fun _ _ => 0⟩).Sat fun p =>
      p.d0 = M.size (M.part k) ∧ p.d1 = M.npc ∧ ∀ c l, c < M.size (M.part k) → l < M.npc →
        p.e c l = mkN l (M.cellZ press (gcell (M.part k) c) l) := fun k => by
    refine (workset_ok (d := 1) hM.mesh (hM.domOk k) (by rw [hp, Nat.mul_one]) rfl (by simp) (hsn k)).mono ?_
    rintro p ⟨a, b, c⟩
    refine ⟨a, by simpa using b, fun i l hi hl => ?_⟩
    rw [c i l hi (by omega), cellDof_one]
    rfl
  refine ⟨?_, ?_, ?_⟩
  · intro k cells s z x r hpart hP hr0 hr1
    have hk := part_lt hpart
    have hdk := hd k hk
    have hsz : M.size (M.part k) = cells.length := by rw [hpart]; rfl
    have hnp : M.npc = (P k).d + 1 := by rw [FeModel.npc, hdk]
    have hnd : M.npc * M.ndof = ((P k).d + 1) * (P k).d := by rw [hndof, hnp, hdk]
    obtain ⟨p, ep, p0, p1, p2⟩ := hws k
    unfold projEv
    rw [ep, Res.ok_bind, hpart]
    dsimp only
    rw [Proj.evaluate_ok fabs (by rw [hdk]; exact hdim) (by rw [hb k hk, hdk]) (hP.s0.trans hsz) (hP.s1.trans hnd)
      (p0.trans hsz) (p1.trans hnp) (hP.z0.trans hsz) (hP.z1.trans hnp) (hP.x0.trans hsz) (hP.x1.trans hnp)
      (by rw [hP.x2, hdk]) (hsz ▸ hse k) (hr0.trans hsz).ge (hr1.trans hnd).ge]
    rw [hpart] at p2
    congr 1
    unfold addRows
    congr 1
    funext c
    split_ifs with hc
    · dsimp only
      rw [Proj.row_congr (by rw [hdk]; exact hdim) fabs (fun _ _ => rfl) (fun n hn => p2 c n hc (by omega)) (fun _ _ => rfl)
        fun _ _ _ _ => rfl]
    · rfl
  · intro k s z x r hpart
    obtain ⟨p, ep, -⟩ := hws k
    unfold projEv
    rw [ep, Res.ok_bind, hpart]
  · intro k c S S' Z Z' X X' hk hS hZ hX l _
    have hdk := hd k hk
    have hnp : M.npc = (P k).d + 1 := by rw [FeModel.npc, hdk]
    have hnd : M.npc * M.ndof = ((P k).d + 1) * (P k).d := by rw [hndof, hnp, hdk]
    rw [Proj.row_congr (by rw [hdk]; exact hdim) fabs (fun l hl => hS l (by omega)) (fun _ _ => rfl)
      (fun n hn => hZ n (by omega)) fun a i ha hi => hX a i (by omega) (by omega)]

end Row

section Tracks
variable {E : Type} [NormedAddCommGroup E] [NormedSpace ℝ E] {L : ℕ → E →L[ℝ] ℝ} {N : ℕ} {x : E}

theorem Proj.row_tracks {P : Proj ℝ} {penF : Fad → Fad} (hd : P.d = 1 ∨ P.d = 2 ∨ P.d = 3) {UF pF ZF : ℕ → Fad} {XF : ℕ → ℕ → Fad}
    {UR pR ZR : E → ℕ → ℝ} {XR : E → ℕ → ℕ → ℝ} (hU : ∀ l, l < (P.d + 1) * P.d → Tracks L N x (UF l) fun y => UR y l)
    (hp : ∀ n, n < P.d + 1 → Tracks L N x (pF n) fun y => pR y n)
    (hZ : ∀ n, n < P.d + 1 → Tracks L N x (ZF n) fun y => ZR y n)
    (hX : ∀ n k, n < P.d + 1 → k < P.d → Tracks L N x (XF n k) fun y => XR y n k)
    (hdet : detForm P.d (XR x) ≠ 0) (hpen : PenOk penF P.pen (meanDensity (P.d + 1) (ZR x))) (l : ℕ) :
    Tracks L N x ((P.lift penF).row Fad.fabs UF pF ZF XF l) fun y => P.row abs (UR y) (pR y) (ZR y) (XR y) l := by
  have hpn : Tracks L N x ((P.lift penF).pen (meanDensity ((P.lift penF).d + 1) ZF)) fun y => P.pen (meanDensity (P.d + 1) (ZR y)) :=
    hpen.tracks (meanDensity_tracks (Nat.succ_ne_zero _) hZ)
  have hv : Tracks L N x (Fad.fabs (detForm (P.lift penF).d XF) * (P.lift penF).cubWeight) fun y => |detForm P.d (XR y)| * P.cubWeight :=
    ((detForm_tracks hd hX).fabs hdet).mul (Tracks.const _)
  unfold Proj.row
  simp only [Pi.add_apply, Finset.sum_apply]
  refine Tracks.add ?_ ?_
  · refine Tracks.sum _ fun n hn => Tracks.sum _ fun i hi => single_tracks ?_
    refine Tracks.mul (Tracks.mul (Tracks.one.mul (at0_const_tracks _ _)) (Tracks.mul ?_ hpn)) hv
    refine interp_tracks (fun _ _ => at0_const_tracks _ _) fun n hn => hU _ ?_
    have : n * P.d + i < (P.d + 1) * P.d := dof_lt (ndof := P.d) hn (mem_range.1 hi)
    show P.d * n + 0 + i < _
    rw [Nat.mul_comm P.d n]; omega
  · refine Tracks.sum _ fun n hn => Tracks.sum _ fun i hi => single_tracks ?_
    refine Tracks.mul (Tracks.mul (Tracks.one.neg.mul (at0_const_tracks _ _)) (Tracks.mul ?_ hpn)) hv
    exact (Tracks.const _).mul (Tracks.sum _ fun n hn => (hp n (mem_range.1 hn)).mul (gradForm_tracks hd hX hdet (mem_range.1 hi)))

end Tracks

end Plato.Plast
