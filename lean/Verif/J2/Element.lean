import Verif.J2.Cell

/-!
# The loops of J2 plasticity
-/

namespace Plato.J2
open Plato Plato.Mech Finset

variable {R : Type} [CommRing R]

theorem row_e {y : V2 R} {c : Nat} {f : Nat → R} : (y.row c f).e c = f := if_pos rfl

section Congr
variable {d : Nat} (hd : d = 2 ∨ d = 3)
include hd

theorem devForm_congr [Div R] {mu : R} {E E' : Nat → R} (h : ∀ t, t < stressTerms d → E t = E' t) {t : Nat}
    (ht : t < stressTerms d) : devForm d mu E t = devForm d mu E' t := by
  unfold devForm third
  rcases hd with rfl | rfl <;>
    simp only [stressTerms, reduceIte, Nat.reduceEqDiff] at h ht ⊢ <;>
    rw [h t ht, h 0 (by omega), h 1 (by omega)]
  · rw [h 3 (by omega)]
  · rw [h 2 (by omega)]

omit hd in
theorem sqForm_congr {S S' : Nat → R} (h : ∀ t, t < stressTerms d → S t = S' t) : sqForm d S = sqForm d S' :=
  sum_congr rfl fun t ht => by rw [h t (mem_range.1 ht)]

end Congr

/-- Extents of the views. -/
structure JViews.Ok (d nc : Nat) (w : JViews R) : Prop where
  v : w.vol.length = nc
  n : w.norm.length = nc
  g0 : w.grad.d0 = nc
  g1 : w.grad.d1 = d + 1
  g2 : w.grad.d2 = d
  d0 : w.dev.d0 = nc
  d1 : w.dev.d1 = stressTerms d
  n0 : w.normal.d0 = nc
  n1 : w.normal.d1 = stressTerms d
  t0 : w.total.d0 = nc
  t1 : w.total.d1 = stressTerms d
  e0 : w.elastic.d0 = nc
  e1 : w.elastic.d1 = stressTerms d

theorem JViews.new_ok (d nc : Nat) : (JViews.new d nc : JViews R).Ok d nc :=
  ⟨List.length_replicate, List.length_replicate, rfl, rfl, rfl, rfl, rfl, rfl, rfl, rfl, rfl, rfl, rfl⟩

/-- Extents of the worksets. -/
structure JWs (P : J2 R) (nc : Nat) (global prev control : V2 R) (config : V3 R) : Prop where
  g0 : global.d0 = nc
  g1 : (P.d + 1) * P.ndof ≤ global.d1
  p0 : prev.d0 = nc
  p1 : prev.d1 = localDofs P.d
  z0 : control.d0 = nc
  z1 : P.d + 1 ≤ control.d1
  x0 : config.d0 = nc
  x1 : config.d1 = P.d + 1
  x2 : config.d2 = P.d

theorem J2.le_ndof (P : J2 R) : P.d ≤ P.ndof := by unfold J2.ndof; split <;> omega

section Cell
variable [Div R] (fabs sqrt : R → R) (pos : R → Bool) {P : J2 R} (hd : P.d = 2 ∨ P.d = 3)
  (hB : P.basis.length = P.d + 1) {nc : Nat} {global prev control : V2 R} {config : V3 R}
  (hw : JWs P nc global prev control config)
include hd hB hw

/-- From the gradient to the direction, for any local state. -/
theorem chain_ok {c : Nat} (hc : c < nc) {w : JViews R} (h : w.Ok P.d nc) (h0 : ∀ t, w.total.e c t = 0)
    {g : V3 R} (g0 : g.d0 = nc) (g1 : g.d1 = P.d + 1) (g2 : g.d2 = P.d)
    (hg : ∀ n k, n < P.d + 1 → k < P.d → g.e c n k = gradForm P.d (config.e c) n k)
    {locl : V2 R} (l0 : locl.d0 = nc) (l1 : locl.d1 = localDofs P.d) :
    ∃ tot el dev normal norm,
      strain P.d P.ndof c w.total global g = .ok tot ∧
      elasticStrain P c global locl tot w.elastic = .ok el ∧
      cellDensity (P.d + 1) c control = .ok (meanDensity (P.d + 1) (control.e c)) ∧
      devStress P.d c (P.penE (meanDensity (P.d + 1) (control.e c)) * P.shear) el w.dev = .ok dev ∧
      normalized sqrt P.d c dev locl w.normal w.norm = .ok (normal, norm) ∧
      tot.d0 = nc ∧ tot.d1 = stressTerms P.d ∧ el.d0 = nc ∧ el.d1 = stressTerms P.d ∧
      dev.d0 = nc ∧ dev.d1 = stressTerms P.d ∧ normal.d0 = nc ∧ normal.d1 = stressTerms P.d ∧ norm.length = nc ∧
      (∀ r, r ≠ c → tot.e r = w.total.e r) ∧
      (∀ t, t < stressTerms P.d →
        normal.e c t = P.dir sqrt (global.e c) (locl.e c) (control.e c) (config.e c) t) ∧
      at0 norm c = P.norm sqrt (global.e c) (locl.e c) (control.e c) (config.e c) := by
  have hd' : P.d = 1 ∨ P.d = 2 ∨ P.d = 3 := .inr hd
  have hv := numVoigt_le hd
  have htot := strain_le (s := w.total) (u := global) (g := g) (c := c) hd (by rw [h.t0]; exact hc)
    (by rw [h.t1]; exact hv) (by rw [hw.g0]; exact hc) hw.g1 (by omega) g1 g2 P.le_ndof
  have hE : ∀ t, t < stressTerms P.d → (if t < numVoigt P.d then (if t < P.d then 0 else w.total.e c t) +
      voigtStrain P.d (nodal P.ndof global c) (g.e c) t else w.total.e c t) =
      P.total (global.e c) (config.e c) t := by
    intro t ht
    unfold J2.total
    by_cases h1 : t < numVoigt P.d
    · rw [if_pos h1, if_pos h1, h0, ite_self, zero_add]
      exact voigtStrain_congr hd' (fun _ _ _ _ => rfl) hg
    · rw [if_neg h1, if_neg h1, h0]
  refine ⟨_, _, _, _, _, htot, elasticStrain_ok (total := w.total.row c _) hd hB (by rw [h.e0]; exact hc) h.e1
      (by show c < w.total.d0; rw [h.t0]; exact hc) h.t1 (by omega) l1 (by rw [hw.g0]; exact hc) hw.g1,
    cellDensity_ok (by rw [hw.z0]; exact hc) hw.z1,
    devStress_ok (e := w.elastic.row c _) hd _ (by show c < w.elastic.d0; rw [h.e0]; exact hc) h.e1
      (by rw [h.d0]; exact hc) h.d1,
    normalized_ok (dev := w.dev.row c _) sqrt hd (by show c < w.dev.d0; rw [h.d0]; exact hc) h.d1 (by omega) l1
      (by rw [h.n0]; exact hc) h.n1 (by rw [h.n]; exact hc), h.t0, h.t1, h.e0, h.e1, h.d0, h.d1, h.n0, h.n1, ?_, ?_, ?_, ?_⟩
  · rw [List.length_set]; exact h.n
  · intro r hr; simp [V2.row, hr]
  all_goals
    have hη : ∀ t, t < stressTerms P.d → etaForm P.d ((w.dev.row c fun t => if t < stressTerms P.d then
        devForm P.d (P.penE (meanDensity (P.d + 1) (control.e c)) * P.shear)
          ((w.elastic.row c fun t => if t < stressTerms P.d then
            P.elasticOf ((w.total.row c fun t => if t < numVoigt P.d then (if t < P.d then 0 else w.total.e c t) +
              voigtStrain P.d (nodal P.ndof global c) (g.e c) t else w.total.e c t).e c) (global.e c) (locl.e c) t
            else w.elastic.e c t).e c) t else w.dev.e c t).e c) (locl.e c) t =
        P.eta (global.e c) (locl.e c) (control.e c) (config.e c) t := by
      intro t ht
      unfold J2.eta etaForm
      simp only [V2.row, if_true]
      rw [if_pos ht]
      congr 1
      refine devForm_congr hd (fun t ht => ?_) ht
      rw [if_pos ht]
      unfold J2.elasticOf
      dsimp only
      rw [hE t ht]
  · intro t ht
    unfold J2.dir J2.norm
    rw [show (w.normal.row c _).e c = _ from if_pos rfl, if_pos ht, hη t ht, sqForm_congr hη]
  · rw [at0_set (by rw [h.n]; exact hc), if_pos rfl, sqForm_congr hη]
    rfl

theorem evaluateCell_ok {locl : V2 R} (l0 : locl.d0 = nc) (l1 : locl.d1 = localDofs P.d) {c : Nat} (hc : c < nc)
    {w : JViews R} (h : w.Ok P.d nc) (h0 : ∀ t, w.total.e c t = 0) {out : V2 R} (o0 : out.d0 = nc)
    (o1 : out.d1 = localDofs P.d) :
    (P.evaluateCell fabs sqrt pos global locl prev control config c (w, out)).Sat fun st =>
      st.1.Ok P.d nc ∧ (∀ r, r ≠ c → st.1.total.e r = w.total.e r) ∧
      st.2 = out.row c fun i => if i < localDofs P.d then P.evalForm sqrt (pos (locl.e c 1)) (global.e c) (locl.e c)
        (prev.e c) (control.e c) (config.e c) i else out.e c i := by
  have hd' : P.d = 1 ∨ P.d = 2 ∨ P.d = 3 := .inr hd
  have hG := computeGradient_form fabs (c := c) (g := w.grad) (cfg := config) (vol := w.vol) hd'
    (by rw [hw.x0]; exact hc) hw.x1 hw.x2 (by rw [h.g0]; exact hc) h.g1 h.g2 (by rw [h.v]; exact hc)
  obtain ⟨tot, el, dev, normal, norm, e1, e2, e3, e4, e5, t0, t1, el0, el1, d0, d1, n0, n1, nl, hT, hN, hM⟩ :=
    chain_ok sqrt hd hB hw hc h h0 (g := w.grad.cell c fun n k =>
      if n < P.d + 1 ∧ k < P.d then gradForm P.d (config.e c) n k else w.grad.e c n k) h.g0 h.g1 h.g2 (fun n k hn hk => by
      simp only [V3.cell, if_true]; exact if_pos ⟨hn, hk⟩) l0 l1
  have h1 : 1 < localDofs P.d := by rcases hd with h | h <;> rw [h] <;> decide
  have hle := stressTerms_eq hd
  unfold J2.evaluateCell
  dsimp only
  rw [hG, Res.ok_bind]
  dsimp only
  rw [e1, Res.ok_bind, e2, Res.ok_bind, e3, Res.ok_bind, e4, Res.ok_bind, e5, Res.ok_bind]
  dsimp only
  rw [vrd2_ok (y := locl) (by omega) (by omega), Res.ok_bind, vrd2_ok (y := prev) (by rw [hw.p0]; exact hc)
    (by rw [hw.p1]; omega), Res.ok_bind, ← V2.row_self out c, vwr2_row (by omega) (by omega), Res.ok_bind,
    vrd2_ok (y := locl) (by omega) (by omega), Res.ok_bind, vwr2_row (by omega) (by omega), Res.ok_bind,
    fillElastic_bind (out := out.row c _) hd (by omega) l1 (by rw [hw.p0]; exact hc) hw.p1 (by show c < out.d0; omega) o1,
    V2.row_row]
  simp only [V2.row_row, V2.row_self, row_e]
  have hok : (⟨w.vol.set c (fabs (detForm P.d (config.e c))), norm, w.grad.cell c (fun n k =>
      if n < P.d + 1 ∧ k < P.d then gradForm P.d (config.e c) n k else w.grad.e c n k), dev, normal, tot, el⟩ :
      JViews R).Ok P.d nc :=
    ⟨by rw [List.length_set]; exact h.v, nl, h.g0, h.g1, h.g2, d0, d1, n0, n1, t0, t1, el0, el1⟩
  by_cases hp : pos (locl.e c 1) = true
  · rw [if_pos hp, vwr2_row (by omega) (by omega), Res.ok_bind, rd_at0 (by omega), Res.ok_bind,
      vwr2_row (by omega) (by omega), Res.ok_bind,
      fillPlastic_bind (out := out.row c _) hd _ (by omega) l1 (by rw [hw.p0]; exact hc) hw.p1 (by omega) n1
      (by show c < out.d0; omega) o1, V2.row_row, Res.pure_eq, Res.sat_ok]
    refine ⟨hok, hT, ?_⟩
    simp only [row_e]
    refine congrArg (V2.row out c) (funext fun i => ?_)
    unfold J2.evalForm
    by_cases hi : i < localDofs P.d
    · simp only [if_pos hi, if_pos hp]
      by_cases hi0 : i = 0
      · subst hi0; simp
      by_cases hi1 : i = 1
      · subst hi1; simp [hM]
      have hi2 : ¬ i < 2 := by omega
      rw [if_neg hi2, if_neg hi0, if_neg hi1]
      by_cases hi3 : i < 2 + stressTerms P.d
      · rw [if_pos hi3, if_pos hi3, hN (i - 2) (by omega)]
      · rw [if_neg hi3, if_neg hi3, hN (i - 2 - stressTerms P.d) (by omega)]
    · have : i ≠ 0 ∧ i ≠ 1 := by omega
      simp [hi, this]
  · rw [if_neg hp, Res.pure_eq, Res.sat_ok]
    refine ⟨hok, hT, ?_⟩
    refine congrArg (V2.row out c) (funext fun i => ?_)
    unfold J2.evalForm
    by_cases hi : i < localDofs P.d
    · rw [if_pos hi, if_pos hi, if_neg hp]
      by_cases hi0 : i = 0
      · subst hi0; simp
      by_cases hi1 : i = 1
      · subst hi1; simp
      have hi2 : ¬ i < 2 := by omega
      rw [if_neg hi2, if_neg hi1]
    · have : i ≠ 0 ∧ i ≠ 1 := by omega
      simp [hi, this]

omit hB hw in
/-- The direction needs the local state from component 2 on. -/
theorem eta_congr {U C C' Z : Nat → R} {X : Nat → Nat → R}
    (h : ∀ i, 2 ≤ i → i < localDofs P.d → C i = C' i) :
    ∀ t, t < stressTerms P.d → P.eta U C Z X t = P.eta U C' Z X t := by
  intro t ht
  have hle := stressTerms_eq hd
  unfold J2.eta etaForm
  rw [h _ (by omega) (by omega)]
  congr 1
  refine devForm_congr hd (fun t ht => ?_) ht
  unfold J2.elasticOf
  rw [h _ (by omega) (by omega)]

omit hB hw in
theorem norm_congr {U C C' Z : Nat → R} {X : Nat → Nat → R}
    (h : ∀ i, 2 ≤ i → i < localDofs P.d → C i = C' i) : P.norm sqrt U C Z X = P.norm sqrt U C' Z X := by
  unfold J2.norm
  rw [sqForm_congr (eta_congr hd h)]

omit hB hw in
theorem dir_congr {U C C' Z : Nat → R} {X : Nat → Nat → R}
    (h : ∀ i, 2 ≤ i → i < localDofs P.d → C i = C' i) :
    ∀ t, t < stressTerms P.d → P.dir sqrt U C Z X t = P.dir sqrt U C' Z X t := by
  intro t ht
  unfold J2.dir
  rw [eta_congr hd h t ht, norm_congr sqrt hd h]

theorem updateCell_ok {c : Nat} (hc : c < nc)
    {w : JViews R} (h : w.Ok P.d nc) (h0 : ∀ t, w.total.e c t = 0) {locl : V2 R} (l0 : locl.d0 = nc)
    (l1 : locl.d1 = localDofs P.d) :
    (P.updateCell fabs sqrt pos global prev control config c (w, locl)).Sat fun st =>
      st.1.Ok P.d nc ∧ (∀ r, r ≠ c → st.1.total.e r = w.total.e r) ∧
      st.2 = locl.row c fun i => if i < localDofs P.d then P.updForm sqrt
        (pos (P.trial sqrt (global.e c) (prev.e c) (control.e c) (config.e c))) (global.e c)
        (prev.e c) (control.e c) (config.e c) i else locl.e c i := by
  have hd' : P.d = 1 ∨ P.d = 2 ∨ P.d = 3 := .inr hd
  have hG := computeGradient_form fabs (c := c) (g := w.grad) (cfg := config) (vol := w.vol) hd'
    (by rw [hw.x0]; exact hc) hw.x1 hw.x2 (by rw [h.g0]; exact hc) h.g1 h.g2 (by rw [h.v]; exact hc)
  have h1 : 1 < localDofs P.d := by rcases hd with h | h <;> rw [h] <;> decide
  have hle := stressTerms_eq hd
  unfold J2.updateCell
  dsimp only
  rw [hG, Res.ok_bind]
  dsimp only
  rw [vrd2_ok (y := prev) (by rw [hw.p0]; exact hc) (by rw [hw.p1]; omega), Res.ok_bind,
    ← V2.row_self locl c, vwr2_row (by omega) (by omega), Res.ok_bind, vwr2_row (by omega) (by omega), Res.ok_bind,
    updateElasticStep_ok (locl := locl.row c _) hd (by rw [hw.p0]; exact hc) hw.p1 (by show c < locl.d0; omega) l1,
    Res.ok_bind, V2.row_row]
  rw [show (locl.row c (locl.e c)).e = locl.e by rw [V2.row_self]]
  set L : Nat → R := fun i => if i < localDofs P.d then (if i < 2 then (locl.row c fun c' => if c' = 1 then 0 else
    if c' = 0 then prev.e c 0 else locl.e c c').e c i else prev.e c i) else (locl.row c fun c' => if c' = 1 then 0 else
    if c' = 0 then prev.e c 0 else locl.e c c').e c i with hL
  obtain ⟨tot, el, dev, normal, norm, e1, e2, e3, e4, e5, t0, t1, el0, el1, d0, d1, n0, n1, nl, hT, hN, hM⟩ :=
    chain_ok (locl := locl.row c L) sqrt hd hB hw hc h h0 (g := w.grad.cell c fun n k =>
      if n < P.d + 1 ∧ k < P.d then gradForm P.d (config.e c) n k else w.grad.e c n k) h.g0 h.g1 h.g2 (fun n k hn hk => by
      simp only [V3.cell, if_true]; exact if_pos ⟨hn, hk⟩) l0 l1
  have hrow : (locl.row c L).e c = L := if_pos rfl
  have hLp : ∀ i, 2 ≤ i → i < localDofs P.d → (locl.row c L).e c i = prev.e c i := by
    intro i h2 hi
    rw [hrow, hL]
    dsimp only
    rw [if_pos hi, if_neg (by omega)]
  have hL0 : L 0 = prev.e c 0 := by rw [hL]; simp [V2.row]
  have hL1 : L 1 = 0 := by rw [hL]; simp [V2.row]
  have hLo : ∀ i, ¬ i < localDofs P.d → L i = locl.e c i := by
    intro i hi
    have : i ≠ 0 ∧ i ≠ 1 := by omega
    rw [hL]; simp [V2.row, hi, this]
  rw [norm_congr sqrt hd hLp] at hM
  simp only [V2.row_row]
  rw [e1, Res.ok_bind, e2, Res.ok_bind, e3, Res.ok_bind, e4, Res.ok_bind, e5, Res.ok_bind]
  dsimp only
  rw [vrd2_row (by omega) (by omega), Res.ok_bind, rd_at0 (by omega), Res.ok_bind, hM, hL0]
  have hok : (⟨w.vol.set c (fabs (detForm P.d (config.e c))), norm, w.grad.cell c (fun n k =>
      if n < P.d + 1 ∧ k < P.d then gradForm P.d (config.e c) n k else w.grad.e c n k), dev, normal, tot, el⟩ :
      JViews R).Ok P.d nc :=
    ⟨by rw [List.length_set]; exact h.v, nl, h.g0, h.g1, h.g2, d0, d1, n0, n1, t0, t1, el0, el1⟩
  change (if pos (P.trial sqrt (global.e c) (prev.e c) (control.e c) (config.e c)) = true then _ else _ : Res _).Sat _
  by_cases hp : pos (P.trial sqrt (global.e c) (prev.e c) (control.e c) (config.e c)) = true
  · rw [if_pos hp, vwr2_row (by omega) (by omega), Res.ok_bind, vrd2_row (by omega) (by omega), Res.ok_bind,
      vwr2_row (by omega) (by omega), Res.ok_bind,
      updatePlasticStep_ok (locl := locl.row c _) hd _ (by rw [hw.p0]; exact hc) hw.p1 (by omega) n1
        (by show c < locl.d0; omega) l1, Res.ok_bind, V2.row_row, Res.pure_eq, Res.sat_ok]
    refine ⟨hok, hT, ?_⟩
    refine congrArg (V2.row locl c) (funext fun i => ?_)
    rw [show (locl.row c _).e c = _ from if_pos rfl]
    unfold J2.updForm J2.incr
    by_cases hi : i < localDofs P.d
    · rw [if_pos hi, if_pos hi, if_pos hp]
      by_cases hi0 : i = 0
      · subst hi0; simp [J2.trial]
      by_cases hi1 : i = 1
      · subst hi1; simp [J2.trial]
      have hi2 : ¬ i < 2 := by omega
      rw [if_neg hi2, if_neg hi0, if_neg hi1]
      by_cases hi3 : i < 2 + stressTerms P.d
      · rw [if_pos hi3, if_pos hi3, hN (i - 2) (by omega), dir_congr sqrt hd hLp (i - 2) (by omega)]
        simp [J2.trial]
      · rw [if_neg hi3, if_neg hi3, hN (i - 2 - stressTerms P.d) (by omega),
          dir_congr sqrt hd hLp (i - 2 - stressTerms P.d) (by omega)]
        simp [J2.trial]
    · have : i ≠ 0 ∧ i ≠ 1 := by omega
      simp [hi, this, hLo]
  · rw [if_neg hp, Res.pure_eq, Res.sat_ok]
    refine ⟨hok, hT, ?_⟩
    refine congrArg (V2.row locl c) (funext fun i => ?_)
    unfold J2.updForm
    by_cases hi : i < localDofs P.d
    · rw [if_pos hi, if_neg hp]
      by_cases hi0 : i = 0
      · subst hi0; simp [hL0]
      by_cases hi1 : i = 1
      · subst hi1; simp [hL1]
      rw [if_neg hi1, ← hLp i (by omega) hi, hrow]
    · rw [if_neg hi, hLo i hi]

/-- **`evaluate` in closed form**, for every order of the cells. -/
theorem evaluate_ok {locl : V2 R} (l0 : locl.d0 = nc) (l1 : locl.d1 = localDofs P.d) {order : List Nat}
    (hs : IsSchedule order nc) {out : V2 R} (o0 : out.d0 = nc) (o1 : out.d1 = localDofs P.d) :
    (P.evaluate fabs sqrt pos nc order global locl prev control config out).Sat fun r => r.d0 = nc ∧
      r.d1 = localDofs P.d ∧ ∀ c i, c < nc → i < localDofs P.d → r.e c i = P.evalForm sqrt (pos (locl.e c 1))
        (global.e c) (locl.e c) (prev.e c) (control.e c) (config.e c) i := by
  unfold J2.evaluate
  refine Res.Sat.bind (parFor_sched hs (fun D (st : JViews R × V2 R) => st.1.Ok P.d nc ∧
    st.2.d0 = nc ∧ st.2.d1 = localDofs P.d ∧ (∀ r, r ∉ D → ∀ t, st.1.total.e r t = 0) ∧
    ∀ c ∈ D, ∀ i, i < localDofs P.d → st.2.e c i = P.evalForm sqrt (pos (locl.e c 1))
        (global.e c) (locl.e c) (prev.e c) (control.e c) (config.e c) i)
    ⟨JViews.new_ok _ _, o0, o1, fun _ _ _ => rfl, by simp⟩ ?_) ?_
  · rintro D c ⟨w, o⟩ hc hD - ⟨h1, h2, h3, h4, h5⟩
    refine (evaluateCell_ok fabs sqrt pos hd hB hw l0 l1 hc h1 (h4 c hD) h2 h3).mono ?_
    rintro ⟨w', o'⟩ ⟨k1, k2, k3⟩
    dsimp only at k1 k2 k3 h5
    subst k3
    refine ⟨k1, h2, h3, ?_, ?_⟩
    · intro r hr t
      have : r ≠ c ∧ r ∉ D := by simpa using hr
      rw [k2 r this.1]
      exact h4 r this.2 t
    · intro r hr i hi
      by_cases hrc : r = c
      · subst hrc; simp [V2.row, hi]
      · have : r ∈ D := by simpa [hrc] using hr
        simp only [V2.row, hrc, if_false]
        exact h5 r this i hi
  · rintro ⟨w, o⟩ ⟨-, h2, h3, -, h5⟩
    dsimp only
    rw [Res.pure_eq, Res.sat_ok]
    exact ⟨h2, h3, fun c i hc hi => h5 c (by simpa using hc) i hi⟩

/-- **`updateLocalState` in closed form**, for every order of the cells and every previous content of the
local state. -/
theorem updateLocalState_ok {order : List Nat} (hs : IsSchedule order nc) {locl : V2 R} (l0 : locl.d0 = nc)
    (l1 : locl.d1 = localDofs P.d) :
    (P.updateLocalState fabs sqrt pos nc order global prev control config locl).Sat fun r => r.d0 = nc ∧
      r.d1 = localDofs P.d ∧ ∀ c i, c < nc → i < localDofs P.d → r.e c i = P.updForm sqrt
        (pos (P.trial sqrt (global.e c) (prev.e c) (control.e c) (config.e c)))
        (global.e c) (prev.e c) (control.e c) (config.e c) i := by
  unfold J2.updateLocalState
  refine Res.Sat.bind (parFor_sched hs (fun D (st : JViews R × V2 R) => st.1.Ok P.d nc ∧
    st.2.d0 = nc ∧ st.2.d1 = localDofs P.d ∧ (∀ r, r ∉ D → ∀ t, st.1.total.e r t = 0) ∧
    ∀ c ∈ D, ∀ i, i < localDofs P.d → st.2.e c i = P.updForm sqrt
        (pos (P.trial sqrt (global.e c) (prev.e c) (control.e c) (config.e c)))
        (global.e c) (prev.e c) (control.e c) (config.e c) i)
    ⟨JViews.new_ok _ _, l0, l1, fun _ _ _ => rfl, by simp⟩ ?_) ?_
  · rintro D c ⟨w, o⟩ hc hD - ⟨h1, h2, h3, h4, h5⟩
    refine (updateCell_ok fabs sqrt pos hd hB hw hc h1 (h4 c hD) h2 h3).mono ?_
    rintro ⟨w', o'⟩ ⟨k1, k2, k3⟩
    dsimp only at k1 k2 k3 h5
    subst k3
    refine ⟨k1, h2, h3, ?_, ?_⟩
    · intro r hr t
      have : r ≠ c ∧ r ∉ D := by simpa using hr
      rw [k2 r this.1]
      exact h4 r this.2 t
    · intro r hr i hi
      by_cases hrc : r = c
      · subst hrc; simp [V2.row, hi]
      · have : r ∈ D := by simpa [hrc] using hr
        simp only [V2.row, hrc, if_false]
        exact h5 r this i hi
  · rintro ⟨w, o⟩ ⟨-, h2, h3, -, h5⟩
    dsimp only
    rw [Res.pure_eq, Res.sat_ok]
    exact ⟨h2, h3, fun c i hc hi => h5 c (by simpa using hc) i hi⟩

end Cell
end Plato.J2
