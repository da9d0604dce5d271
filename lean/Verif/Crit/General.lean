import Verif.Crit.GeneralModel
import Verif.Crit.AugLagProps

/-!
# C103: the general augmented Lagrangian stress criterion
-/

namespace Plato.Crit
open Finset Plato Plato.Mech

/-! ## The constraint of a cell -/

/-- The excess over one: fourth power plus square. -/
noncomputable def excess4 (a : ℝ) : ℝ := if 1 < a then (a - 1) ^ 4 + (a - 1) ^ 2 else 0

theorem excess4_nonneg (a : ℝ) : 0 ≤ excess4 a := by
  unfold excess4
  split_ifs
  · positivity
  · exact le_rfl

theorem excess4_pos {a : ℝ} (h : 1 < a) : 0 < excess4 a := by
  unfold excess4
  rw [if_pos h]
  have : 0 < a - 1 := by linarith
  positivity

theorem generalConstraint_real (over pen : ℝ) : generalConstraint id over pen = pen * excess4 over := by
  unfold generalConstraint excess4
  simp only [id]
  split_ifs
  · ring
  · simp

/-- The constraint in terms of that of the quadratic criterion. -/
theorem generalConstraint_eq {R : Type} [CommRing R] (val : R → ℝ) (over pen : R) :
    generalConstraint val over pen =
      trueConstraint val over pen + trueConstraint val over pen * trueConstraint val over 1 := by
  unfold generalConstraint trueConstraint
  dsimp only
  split_ifs
  · ring
  · ring

/-- Mass of a cell over density and volume: the basis functions average the control. -/
def massForm {R : Type} [CommRing R] (npc : Nat) (basis : List R) (Z : Nat → R) : R :=
  ∑ i ∈ range npc, ∑ j ∈ range npc, at0 basis i * at0 basis j * Z j

theorem cellMass_ok {R : Type} [CommRing R] {npc c : Nat} {basis : List R} {control : V2 R} (hb : npc ≤ basis.length)
    (h0 : c < control.d0) (h1 : npc ≤ control.d1) :
    cellMass npc c basis control = .ok (massForm npc basis (control.e c)) := by
  unfold cellMass
  have inner : ∀ i, i < npc → (forRange 0 npc (0 : R) fun j s => do
      let a ← rd basis i
      let b ← rd basis j
      let z ← vrd2 control c j
      pure (s + a * b * z)) = .ok (∑ j ∈ range npc, at0 basis i * at0 basis j * control.e c j) := by
    intro i hi
    have := forRange_eq (n := npc) (body := fun j (s : R) => do
      let a ← rd basis i
      let b ← rd basis j
      let z ← vrd2 control c j
      pure (s + a * b * z)) (fun k => ∑ j ∈ range k, at0 basis i * at0 basis j * control.e c j) (by
        intro k hk
        rw [rd_at0 (by omega), Res.ok_bind, rd_at0 (by omega), Res.ok_bind, vrd2_ok h0 (by omega), Res.ok_bind,
          sum_range_succ]
        rfl)
    rw [sum_range_zero] at this
    exact this
  have := forRange_eq (n := npc) (body := fun i (m : R) => do
    let nodal ← forRange 0 npc (0 : R) fun j s => do
      let a ← rd basis i
      let b ← rd basis j
      let z ← vrd2 control c j
      pure (s + a * b * z)
    pure (m + nodal)) (fun k => ∑ i ∈ range k, ∑ j ∈ range npc, at0 basis i * at0 basis j * control.e c j) (by
      intro k hk
      rw [inner k hk, Res.ok_bind, sum_range_succ]
      rfl)
  rw [sum_range_zero] at this
  exact this

/-- With basis functions that sum to one the mass is the interpolated control. -/
theorem massForm_sum {npc : Nat} {basis : List ℝ} (h : ∑ i ∈ range npc, at0 basis i = 1) (Z : Nat → ℝ) :
    massForm npc basis Z = ∑ j ∈ range npc, at0 basis j * Z j := by
  unfold massForm
  rw [sum_comm]
  refine sum_congr rfl fun j _ => ?_
  rw [← sum_mul, ← sum_mul, h, one_mul]

theorem massForm_congr {R : Type} [CommRing R] {npc : Nat} {basis : List R} {Z Z' : Nat → R}
    (h : ∀ a, a < npc → Z a = Z' a) : massForm npc basis Z = massForm npc basis Z' :=
  sum_congr rfl fun _ _ => sum_congr rfl fun j hj => by rw [h j (mem_range.1 hj)]

/-! ## The loops -/

/-- A loop over the cells that computes stress and von Mises stress of a cell and then writes one entry of
its last view. -/
theorem stressed_loop {R : Type} [CommRing R] [Div R] (fabs sqrt : R → R) (half : R) {P : Elastostatic R}
    (hd : P.d = 1 ∨ P.d = 2 ∨ P.d = 3) {nc m : Nat} {s z : V2 R} {x : V3 R} (hw : WsOk P.d P.d nc s z x)
    {order : List Nat} (ho : IsSchedule order nc) {r0 : List R} (hr0 : r0.length = m)
    {tail : Nat → Views R → List R → List R → Res (Views R × List R × List R)} {f : Nat → R → R → R → R}
    (ht : ∀ c w vm r, c < nc → w.Ok P.d nc → vm.length = nc → r.length = m →
      tail c w vm r = .ok (w, vm, r.set c (f c (at0 vm c) (at0 w.vol c) (at0 r c)))) (hm : nc ≤ m) :
    (parFor order (Views.new P.d nc, List.replicate nc (0 : R), r0) fun c (p : Views R × List R × List R) => do
      let w ← P.stressCell fabs s x c p.1
      let vm ← vonMises sqrt half P.d c w.stress p.2.1
      tail c w vm p.2.2).Sat fun p => p.2.2.length = m ∧ ∀ c, at0 p.2.2 c = if c < nc then
        f c (vonMisesForm sqrt half P.d (P.solidStress (s.e c) (x.e c))) (P.volForm fabs (x.e c)) (at0 r0 c)
        else at0 r0 c := by
  refine (parFor_sched ho (fun D (p : Views R × List R × List R) => p.1.Ok P.d nc ∧
    (∀ c, c ∉ D → ∀ t, p.1.strain.e c t = 0) ∧ p.2.1.length = nc ∧ p.2.2.length = m ∧
    ∀ c, at0 p.2.2 c = if c ∈ D then
      f c (vonMisesForm sqrt half P.d (P.solidStress (s.e c) (x.e c))) (P.volForm fabs (x.e c)) (at0 r0 c)
      else at0 r0 c)
    ⟨Views.new_ok _ _, fun _ _ _ => rfl, List.length_replicate, hr0, by simp⟩ ?_).mono ?_
  · rintro D c ⟨w, vm, r⟩ hc hD - ⟨hok, hz, hl, hr, hq⟩
    refine Res.Sat.bind (stressCell_ok fabs hd hw hc hok (hz c hD)) ?_
    rintro w' ⟨hok', hp, hf⟩
    have b0 := hok'.s0
    have b1 := hok'.s1
    dsimp only at hl hr hq hz ⊢
    rw [vonMises_ok sqrt half hd (by omega) b1.ge (by omega), Res.ok_bind,
      ht c w' _ r hc hok' (by rw [List.length_set]; exact hl) hr]
    refine Res.Sat.ok ⟨hok', ?_, by rw [List.length_set]; exact hl, by rw [List.length_set]; exact hr, ?_⟩
    · intro r' hr' t
      have hne : r' ≠ c := by rintro rfl; exact hr' (mem_insert_self _ _)
      rw [(hf r' hne).2.2.1]
      exact hz r' (fun h => hr' (mem_insert_of_mem h)) t
    · intro j
      dsimp only
      rw [at0_set (by omega)]
      by_cases hj : j = c
      · subst hj
        rw [if_pos rfl, if_pos (mem_insert_self _ _), at0_set (by omega), if_pos rfl, hq j, if_neg hD, hp.vol,
          vonMisesForm_congr sqrt half hd hp.stress]
      · rw [if_neg hj, hq j]
        simp only [mem_insert, hj, false_or]
  · rintro ⟨w, vm, r⟩ ⟨-, -, -, hr, hq⟩
    refine ⟨hr, fun c => ?_⟩
    rw [hq c]
    simp only [mem_range]

/-- The value of a cell. -/
noncomputable def genForm {R : Type} [CommRing R] [Div R] (fabs sqrt : R → R) (val : R → ℝ) (ofReal : ℝ → R)
    (pen : PenaltyData → R → R) (G : General) (P : Elastostatic R) (basis : List ℝ) (n c : Nat) (U Z : Nat → R)
    (X : Nat → Nat → R) : R :=
  ofReal G.massWeight * (massForm (P.d + 1) (basis.map ofReal) Z * ofReal G.density * P.volForm fabs X / ofReal G.norm) +
    ofReal G.stressWeight * lagrangian ofReal G.base n c (generalConstraint val
      (vonMisesForm sqrt (ofReal (1 / 2)) P.d (P.solidStress U X) / ofReal G.base.limit)
      (pen G.base.simp (meanDensity (P.d + 1) Z)))

theorem generalEval_ok {R : Type} [CommRing R] [Div R] {fabs sqrt : R → R} {val : R → ℝ} {ofReal : ℝ → R}
    {pen : PenaltyData → R → R} {P : Nat → Elastostatic R} {basis : List ℝ} {G : Nat → General} {sch : Nat → List Nat}
    {k n : Nat} {s z : V2 R} {x : V3 R} (hd : (P k).d = 1 ∨ (P k).d = 2 ∨ (P k).d = 3)
    (hw : WsOk (P k).d (P k).d n s z x) (hs : IsSchedule (sch k) n) (hb : basis.length = (P k).d + 1)
    (hG : n ≤ (G k).base.lam.length) (dt : ℝ) :
    (generalEval fabs sqrt val ofReal pen P basis G sch k s z x (List.replicate n 0) dt).Sat fun r =>
      r.length = n ∧ ∀ c, c < n → at0 r c =
        genForm fabs sqrt val ofReal pen (G k) (P k) basis n c (s.e c) (z.e c) (x.e c) := by
  unfold generalEval
  rw [List.length_replicate]
  have hz0 := hw.z0
  have hz1 := hw.z1
  have hloop := stressed_loop fabs sqrt (ofReal (1 / 2)) hd hw hs (r0 := List.replicate n (0 : R)) (m := n)
    List.length_replicate
    (tail := fun c w vm r => do
      let m ← rd vm c
      let rho ← cellDensity ((P k).d + 1) c z
      let t := generalConstraint val (m / ofReal (G k).base.limit) (pen (G k).base.simp rho)
      let l ← rd (G k).base.lam c
      let constraint := ofReal (1 / n) * (ofReal l * t + ofReal (1 / 2) * ofReal (G k).base.penalty * t * t)
      let mass ← cellMass ((P k).d + 1) c (basis.map ofReal) z
      let v ← rd w.vol c
      let objective := mass * ofReal (G k).density * v / ofReal (G k).norm
      let r ← wr r c (ofReal (G k).massWeight * objective + ofReal (G k).stressWeight * constraint)
      pure (w, vm, r))
    (f := fun c m v _ =>
      ofReal (G k).massWeight * (massForm ((P k).d + 1) (basis.map ofReal) (z.e c) * ofReal (G k).density * v /
        ofReal (G k).norm) + ofReal (G k).stressWeight * lagrangian ofReal (G k).base n c (generalConstraint val
          (m / ofReal (G k).base.limit) (pen (G k).base.simp (meanDensity ((P k).d + 1) (z.e c))))) (by
      intro c w vm r hc hok hl hr
      have hv := hok.v
      rw [rd_at0 (by omega), Res.ok_bind, cellDensity_ok (by omega) (by omega), Res.ok_bind]
      dsimp only
      rw [rd_at0 (by omega), Res.ok_bind, cellMass_ok (by rw [List.length_map]; omega) (by omega) (by omega),
        Res.ok_bind, rd_at0 (by omega), Res.ok_bind, wr_eq (by omega), Res.ok_bind]
      rfl) le_rfl
  refine Res.Sat.bind hloop ?_
  rintro ⟨w, vm, r⟩ ⟨hl, hq⟩
  refine Res.Sat.ok ⟨hl, fun c hc => ?_⟩
  rw [hq c, if_pos hc]
  rfl

/-- The multipliers after one update. -/
noncomputable def nextGenLam (A : AugLag) (n : Nat) (over rho : Nat → ℝ) : List ℝ :=
  List.ofFn fun c : Fin A.lam.length => if c.1 < n then
    max (at0 A.lam c + A.penalty * (Plato.simp A.simp (rho c) * excess4 (over c))) 0 else at0 A.lam c

/-- The object after one update. -/
noncomputable def nextGen (G : General) (n : Nat) (over rho : Nat → ℝ) : General :=
  { G with base := ⟨G.base.simp, G.base.limit, min (G.base.expansion * G.base.penalty) G.base.bound, G.base.bound,
    G.base.expansion, nextGenLam G.base n over rho⟩ }

/-- Von Mises stress of a cell over the limit. -/
noncomputable def overOf (G : General) (P : Elastostatic ℝ) (s : V2 ℝ) (x : V3 ℝ) (c : Nat) : ℝ :=
  vonMisesForm Real.sqrt (1 / 2) P.d (P.solidStress (s.e c) (x.e c)) / G.base.limit

theorem genUpdate_ok {G : General} {P : Elastostatic ℝ} {n : Nat} {s z : V2 ℝ} {x : V3 ℝ}
    (hd : P.d = 1 ∨ P.d = 2 ∨ P.d = 3) (hw : WsOk P.d P.d n s z x) {order : List Nat} (hs : IsSchedule order n)
    (hG : n ≤ G.base.lam.length) :
    G.update P n order s z x =
      .ok (nextGen G n (overOf G P s x) (fun c => meanDensity (P.d + 1) (z.e c))) := by
  unfold General.update
  have hz0 := hw.z0
  have hz1 := hw.z1
  obtain ⟨⟨w, vm, r⟩, e, hl, hq⟩ := stressed_loop abs Real.sqrt (1 / 2) hd hw hs (r0 := G.base.lam) rfl
    (tail := fun c w vm lam => do
      let m ← rd vm c
      let rho ← cellDensity (P.d + 1) c z
      let t := generalConstraint id (m / G.base.limit) (Plato.simp G.base.simp rho)
      let l ← rd lam c
      let lam ← wr lam c (max (l + G.base.penalty * t) 0)
      pure (w, vm, lam))
    (f := fun c m _ l => max (l + G.base.penalty * (Plato.simp G.base.simp (meanDensity (P.d + 1) (z.e c)) *
      excess4 (m / G.base.limit))) 0) (by
      intro c w vm r hc hok hl hr
      rw [rd_at0 (by omega), Res.ok_bind, cellDensity_ok (by omega) (by omega), Res.ok_bind]
      dsimp only
      rw [rd_at0 (by omega), Res.ok_bind, wr_eq (by omega), Res.ok_bind, generalConstraint_real]
      rfl) hG
  have e' : parFor order (Views.new P.d n, List.replicate n 0, G.base.lam) (G.updateCell P s z x) = .ok (w, vm, r) := e
  rw [e', Res.ok_bind]
  have hr : r = nextGenLam G.base n (overOf G P s x) (fun c => meanDensity (P.d + 1) (z.e c)) := by
    refine List.ext_getElem (by simp only [nextGenLam, List.length_ofFn]; exact hl) fun c hc hc' => ?_
    have := hq c
    dsimp only at this
    rw [at0_eq hc] at this
    rw [this]
    simp only [nextGenLam, List.getElem_ofFn, overOf]
  dsimp only
  rw [hr]
  rfl

end Plato.Crit
