import Verif.Plast.OutputModel
import Verif.Plast.Work
import Verif.PWork.Work
import Verif.Tensor.Eigen
import Verif.Dyn.Output

/-!
# C82: what the output of plasticity shows

Every name of the output with what it shows, in tensors; the principal stresses; three dimensions and
temperature.
-/

namespace Plato.Plast
open Finset Plato Plato.Mech Plato.Thermal Plato.J2 Plato.Dyn Plato.Tensor
open Plato.PWork (hooke)

/-! ## Specification -/

/-- Elastic strain of a cell: total less thermal less plastic. -/
noncomputable def Plast.strainEl (P : Plast ℝ) (U C : Nat → ℝ) (X : Nat → Nat → ℝ) : J2.Tensor :=
  P.mat.mechStrain U X - (point P.d C).ep

/-- Stress of a cell: Hooke's law with penalised moduli. -/
noncomputable def Plast.stressEl (P : Plast ℝ) (U C Z : Nat → ℝ) (X : Nat → Nat → ℝ) : J2.Tensor :=
  hooke (P.penOf Z * P.bulk) (P.penOf Z * P.mat.shear) (P.strainEl U C X)

/-- What `ComputeCauchyStress` adds in three dimensions: it takes the shear component yz for the normal component zz
of the trace. -/
noncomputable def Plast.excess (P : Plast ℝ) (U C Z : Nat → ℝ) (X : Nat → Nat → ℝ) : ℝ :=
  if P.d = 2 then 0
  else P.penOf Z * (P.bulk - 2 * P.mat.shear / 3) * (2 * P.strainEl U C X 1 2 - P.strainEl U C X 2 2)

/-- What a row of the output of that name shows. -/
def Shows (P : Plast ℝ) (name : String) (U C Z : Nat → ℝ) (X : Nat → Nat → ℝ) (row : Nat → ℝ) : Prop :=
  (name = "plastic multiplier increment" → row 0 = (point P.d C).inc) ∧
  (name = "accumulated plastic strain" → row 0 = (point P.d C).acc) ∧
  (name = "deviatoric stress" → stressTensor P.d row = deviator (P.stressEl U C Z X)) ∧
  (name = "elastic strain" → strainTensor P.d row = P.strainEl U C X) ∧
  (name = "plastic strain" → strainTensor P.d row = (point P.d C).ep) ∧
  (name = "backstress" → stressTensor P.d row = (point P.d C).back) ∧
  (name = "cauchy stress" → stressTensor P.d row = P.stressEl U C Z X + P.excess U C Z X • (1 : J2.Tensor)) ∧
  (name = "thermal flux" → ∀ k, k < P.d → row k = -(P.penOf Z * P.cond) * (P.mat.tscale * P.gradOf P.d U X k))

/-- The names. -/
def names (thermal : Bool) : List String :=
  ["plastic multiplier increment", "accumulated plastic strain", "deviatoric stress", "elastic strain",
    "plastic strain", "cauchy stress", "backstress"] ++ if thermal then ["thermal flux"] else []

/-- Number of components. -/
def width (d : Nat) (name : String) : Nat :=
  if name = "plastic multiplier increment" ∨ name = "accumulated plastic strain" then 1
  else if name = "thermal flux" then d else stressTerms d

/-- The part of a tensor in the plane. -/
def block (A : J2.Tensor) : Matrix (Fin 2) (Fin 2) ℝ := !![A 0 0, A 0 1; A 1 0, A 1 1]

/-- In the list of names and views there is exactly one view of that name, and `toMap` makes of it an entry with
property `Q`. -/
def Stored (r : List (String × V2 ℝ)) (nelems : Nat) (cells order : List Nat) (name : String) (entry : Option (V2 ℝ))
    (Q : V2 ℝ → Prop) : Prop :=
  ∃ view, (name, view) ∈ r ∧ (∀ view', (name, view') ∈ r → view' = view) ∧
    (toMap nelems cells order view entry).Sat Q

/-! ## Tensors -/

theorem deviator_hooke (K mu : ℝ) (E : J2.Tensor) : deviator (hooke K mu E) = (2 * mu) • deviator E := by
  ext i j
  simp only [hooke, deviator, Matrix.sub_apply, Matrix.add_apply, Matrix.smul_apply, Matrix.trace, Fin.sum_univ_three,
    Matrix.diag_apply, Matrix.one_apply, smul_eq_mul]
  fin_cases i <;> fin_cases j <;> simp <;> ring

/-- The stress of `ComputeCauchyStress` in tensors. -/
theorem cauchy_tensor {d : Nat} (hd : d = 2 ∨ d = 3) (K mu : ℝ) (E : Nat → ℝ) :
    stressTensor d (cauchyForm d K mu E) = hooke K mu (strainTensor d E) +
      ((K - 2 * mu / 3) * (if d = 2 then 0 else E 3 - E 2)) • (1 : J2.Tensor) := by
  unfold stressTensor strainTensor hooke deviator cauchyForm
  ext i j
  rcases hd with rfl | rfl <;> fin_cases i <;> fin_cases j <;>
    simp [isNormal, Matrix.trace, Fin.sum_univ_three] <;> ring

section
variable {P : Plast ℝ} (hd : P.d = 2 ∨ P.d = 3)
include hd

theorem dev_shows (U C Z : Nat → ℝ) (X : Nat → Nat → ℝ) {row : Nat → ℝ}
    (h : ∀ t, t < stressTerms P.d → row t = P.devOf U C Z X t) :
    stressTensor P.d row = deviator (P.stressEl U C Z X) := by
  rw [(stressTensor_inj hd).2 h]
  unfold Plast.devOf Plast.stressEl Plast.strainEl
  rw [dev_tensor hd, deviator_hooke]
  unfold Plast.elasticAt
  rw [elastic_tensor hd]

theorem elastic_shows (U C : Nat → ℝ) (X : Nat → Nat → ℝ) {row : Nat → ℝ}
    (h : ∀ t, t < stressTerms P.d → row t = P.elasticAt U C X t) : strainTensor P.d row = P.strainEl U C X := by
  rw [(strainTensor_inj hd).2 h]
  exact elastic_tensor hd U C X

/-- What the Cauchy stress shows. -/
theorem cauchy_shows (U C Z : Nat → ℝ) (X : Nat → Nat → ℝ) {row : Nat → ℝ}
    (h : ∀ t, t < stressTerms P.d → row t =
      cauchyForm P.d (P.penOf Z * P.bulk) (P.penOf Z * P.mat.shear) (P.elasticAt U C X) t) :
    stressTensor P.d row = P.stressEl U C Z X + P.excess U C Z X • (1 : J2.Tensor) := by
  rw [(stressTensor_inj hd).2 h, cauchy_tensor hd]
  have e := elastic_shows hd U C X (row := P.elasticAt U C X) fun _ _ => rfl
  rw [e]
  unfold Plast.stressEl Plast.excess
  congr 2
  by_cases h2 : P.d = 2
  · rw [if_pos h2, if_pos h2]; ring
  · rw [if_neg h2, if_neg h2, ← e]
    unfold strainTensor
    rw [if_neg h2]
    simp
    ring

end

/-! ## The named views -/

section
variable {P : Plast ℝ} (hd : P.d = 2 ∨ P.d = 3) (hB : P.mat.basis.length = P.d + 1) {cells : List Nat}
  {global locl node control : V2 ℝ} {config : V3 ℝ} (hw : GWs P cells.length global locl node control config)
include hd hB hw

/-! ### Principal stresses -/

/-- Row of the principal stresses for the stress `σ`. -/
def IsPrincipal (d : Nat) (σ row : Nat → ℝ) : Prop :=
  (d = 2 → (0 ≤ σ 2 → row 0 + row 1 = (voigt2 σ false).trace ∧ row 0 * row 1 = (voigt2 σ false).det) ∧
    (σ 2 ≤ 0 → row 0 = σ 0 ∧ row 1 = σ 1)) ∧
  (d = 3 → ∃ err : ℝ, (err ≤ (2 / 3) ^ 6 * offDiag (voigt3 σ false) ∨ err ≤ 3 / 10 ^ 30) ∧
    ∑ i ∈ range 3, row i = (voigt3 σ false).trace ∧
    (∀ i, i < 3 → ∃ l, IsEigen (voigt3 σ false) l ∧ (row i - l) ^ 2 ≤ err) ∧
    ∀ l, IsEigen (voigt3 σ false) l → ∃ i, i < 3 ∧ (row i - l) ^ 2 ≤ 2 * err)

omit hd hB hw in
theorem vwr2_frame {y y' : V2 ℝ} {i j : Nat} {a : ℝ} (h : vwr2 y i j a = .ok y') :
    y'.d0 = y.d0 ∧ y'.d1 = y.d1 ∧ ∀ r, r ≠ i → y'.e r = y.e r := by
  unfold vwr2 at h
  split_ifs at h
  cases h
  exact ⟨rfl, rfl, fun r hr => by funext c; simp [hr]⟩

omit hd hB hw in
theorem eigenOf_ok {d c : Nat} (hd : d = 2 ∨ d = 3) {σ out : V2 ℝ} (h0 : c < σ.d0) (h1 : σ.d1 = stressTerms d)
    (h2 : c < out.d0) (h3 : out.d1 = d) :
    (eigenOf d c σ out).Sat fun r => r.d0 = out.d0 ∧ r.d1 = out.d1 ∧ (∀ q, q ≠ c → r.e q = out.e q) ∧
      IsPrincipal d (σ.e c) (r.e c) := by
  rcases hd with rfl | rfl
  · have h1 : σ.d1 = 4 := h1
    obtain ⟨r, er, k1, k2⟩ := eigenvalues2_eq (strain := false) h0 (by omega) h2 h3.ge
    refine ⟨r, er, ?_⟩
    unfold eigenvalues2 at er
    rw [vrd2_ok h0 (by omega), Res.ok_bind, vrd2_ok h0 (by omega), Res.ok_bind, vrd2_ok h0 (by omega), Res.ok_bind] at er
    dsimp only at er
    obtain ⟨m, e1, e2⟩ := bind_ok' er
    obtain ⟨a1, a2, a3⟩ := vwr2_frame e1
    obtain ⟨b1, b2, b3⟩ := vwr2_frame e2
    exact ⟨b1.trans a1, b2.trans a2, fun q hq => (b3 q hq).trans (a3 q hq), fun _ => ⟨k1, k2⟩, fun h => by omega⟩
  · have h1 : σ.d1 = 6 := h1
    obtain ⟨r, err, er, k⟩ := C36_eigenvalues3 (strain := false) h0 h1.ge h2 h3.ge 6
    refine ⟨r, er, ?_⟩
    unfold eigenvalues3 at er
    obtain ⟨T, -, er⟩ := bind_ok' er
    obtain ⟨T', -, er⟩ := bind_ok' er
    obtain ⟨m, e1, er⟩ := bind_ok' er
    obtain ⟨m', e2, e3⟩ := bind_ok' er
    obtain ⟨a1, a2, a3⟩ := vwr2_frame e1
    obtain ⟨b1, b2, b3⟩ := vwr2_frame e2
    obtain ⟨c1, c2, c3⟩ := vwr2_frame e3
    exact ⟨c1.trans (b1.trans a1), c2.trans (b2.trans a2), fun q hq => (c3 q hq).trans ((b3 q hq).trans (a3 q hq)),
      fun h => by omega, fun _ => ⟨err, k⟩⟩

omit hd hB hw in
theorem IsPrincipal.congr {d : Nat} (hd : d = 2 ∨ d = 3) {σ σ' row : Nat → ℝ}
    (h : ∀ t, t < stressTerms d → σ t = σ' t) (k : IsPrincipal d σ row) : IsPrincipal d σ' row := by
  rcases hd with rfl | rfl
  · have e : voigt2 σ false = voigt2 σ' false := by
      unfold voigt2
      rw [h 0 (by decide), h 1 (by decide), h 2 (by decide)]
    unfold IsPrincipal at k ⊢
    rw [← e, ← h 0 (by decide), ← h 1 (by decide), ← h 2 (by decide)]
    exact ⟨k.1, fun h => by omega⟩
  · have e : voigt3 σ false = voigt3 σ' false := by
      unfold voigt3
      rw [h 0 (by decide), h 1 (by decide), h 2 (by decide), h 3 (by decide), h 4 (by decide), h 5 (by decide)]
    unfold IsPrincipal at k ⊢
    rw [← e]
    exact ⟨fun h => by omega, k.2⟩

/-- The stress of which the principal stresses are taken. -/
noncomputable def Plast.plainStress (P : Plast ℝ) (U C Z : Nat → ℝ) (X : Nat → Nat → ℝ) : Nat → ℝ :=
  cauchyForm P.d (P.penOf Z * P.bulk) (P.penOf Z * P.mat.shear) ((plainMat P.mat).elasticOf (P.mat.total U X) U C)

omit hd hB hw in
/-- Extents of the views. -/
structure SViews.Ok (d nc : Nat) (w : SViews) : Prop where
  vol : w.vol.length = nc
  cauchy : Ext w.cauchy nc (stressTerms d)
  total : Ext w.total nc (stressTerms d)
  elastic : Ext w.elastic nc (stressTerms d)
  g0 : w.grad.d0 = nc
  g1 : w.grad.d1 = d + 1
  g2 : w.grad.d2 = d

theorem principalCell_ok {c : Nat} (hc : c < cells.length) {w : SViews} (h : w.Ok P.d cells.length)
    (h0 : ∀ t, w.total.e c t = 0) {out : V2 ℝ} (ho : Ext out cells.length P.d) :
    (P.principalCell global locl control config c (w, out)).Sat fun s => s.1.Ok P.d cells.length ∧
      (∀ r, r ≠ c → s.1.total.e r = w.total.e r) ∧ Ext s.2 cells.length P.d ∧ (∀ r, r ≠ c → s.2.e r = out.e r) ∧
      IsPrincipal P.d (P.plainStress (global.e c) (locl.e c) (control.e c) (config.e c)) (s.2.e c) := by
  have hd' : P.d = 1 ∨ P.d = 2 ∨ P.d = 3 := .inr hd
  have hv := h.vol
  have hg0 := h.g0
  have hx0 := hw.x0
  have hu0 := hw.g0
  have hl0 := hw.l0
  have hz0 := hw.z0
  unfold Plast.principalCell
  dsimp only
  rw [computeGradient_form (fun a => |a|) hd' (by omega) hw.x1 hw.x2 (by omega) h.g1 h.g2 (by omega), Res.ok_bind]
  dsimp only
  generalize hg : w.grad.cell c _ = g
  have hG : ∀ n k, n < P.d + 1 → k < P.d → g.e c n k = gradForm P.d (config.e c) n k := by
    intro n k hn hk
    rw [← hg]
    simp only [V3.cell, if_true]
    rw [if_pos ⟨hn, hk⟩]
  have g0 : g.d0 = cells.length := by rw [← hg]; exact h.g0
  have g1 : g.d1 = P.d + 1 := by rw [← hg]; exact h.g1
  have g2 : g.d2 = P.d := by rw [← hg]; exact h.g2
  clear hg
  rw [rd_at0 (by rw [List.length_set]; omega), Res.ok_bind]
  refine Res.Sat.bind (wr_entry (by rw [List.length_set]; omega) _) fun v hv' => ?_
  have hvl : v.length = cells.length := by rw [hv'.length, List.length_set]; exact hv
  have hvt := numVoigt_le hd
  rw [strain_le (s := w.total) (u := global) (g := g) (c := c) hd (by rw [h.total.1]; exact hc)
    (by rw [h.total.2]; exact hvt) (by omega) hw.g1 (by omega) g1 g2 P.le_ndof, Res.ok_bind]
  have hE : ∀ t, t < stressTerms P.d → (if t < numVoigt P.d then (if t < P.d then 0 else w.total.e c t) +
      voigtStrain P.d (nodal P.ndof global c) (g.e c) t else w.total.e c t) =
      P.mat.total (global.e c) (config.e c) t := by
    intro t ht
    unfold J2.total
    by_cases h1 : t < numVoigt P.d
    · rw [if_pos h1, if_pos h1, h0, ite_self, zero_add]
      exact voigtStrain_congr hd' (fun _ _ _ _ => rfl) hG
    · rw [if_neg h1, if_neg h1, h0]
  generalize ht : w.total.row c _ = tot
  have ht0 : tot.d0 = cells.length := by rw [← ht]; exact h.total.1
  have ht1 : tot.d1 = stressTerms P.d := by rw [← ht]; exact h.total.2
  have htE : ∀ t, t < stressTerms P.d → tot.e c t = P.mat.total (global.e c) (config.e c) t := by
    intro t h; rw [← ht, row_e]; exact hE t h
  have hto : ∀ r, r ≠ c → tot.e r = w.total.e r := by intro r hr; rw [← ht]; simp [V2.row, hr]
  clear ht hE
  rw [elasticStrain_ok (P := plainMat P.mat) (total := tot) hd hB (by rw [h.elastic.1]; exact hc) h.elastic.2
      (by omega) ht1 (by omega) hw.l1 (by omega) hw.g1, Res.ok_bind, cellDensity_ok (by omega) hw.z1, Res.ok_bind]
  generalize hel : w.elastic.row c _ = el
  have el0 : el.d0 = cells.length := by rw [← hel]; exact h.elastic.1
  have el1 : el.d1 = stressTerms P.d := by rw [← hel]; exact h.elastic.2
  have elE : ∀ t, t < stressTerms P.d → el.e c t =
      (plainMat P.mat).elasticOf (P.mat.total (global.e c) (config.e c)) (global.e c) (locl.e c) t := by
    intro t ht
    rw [← hel, row_e, if_pos (show t < stressTerms (plainMat P.mat).d from ht)]
    unfold J2.elasticOf
    rw [htE t ht]
  clear hel
  refine Res.Sat.bind (cauchyStress_ok hd _ _ (by omega) el1 (by rw [h.cauchy.1]; exact hc) h.cauchy.2) fun ca hca => ?_
  refine Res.Sat.bind (eigenOf_ok hd (by rw [hca.d0, h.cauchy.1]; exact hc) (by rw [hca.d1, h.cauchy.2])
    (by rw [ho.1]; exact hc) ho.2) fun r hr => ?_
  rw [Res.pure_eq, Res.sat_ok]
  refine ⟨⟨hvl, hca.ext h.cauchy, ⟨ht0, ht1⟩, ⟨el0, el1⟩, g0, g1, g2⟩, hto,
    ⟨hr.1.trans ho.1, hr.2.1.trans ho.2⟩, hr.2.2.1, hr.2.2.2.congr hd fun t ht => ?_⟩
  rw [hca.val t ht, cauchyForm_congr hd elE ht]
  rfl

/-- The loop of the principal stresses, for every schedule. -/
theorem principal_ok (hn : cells ≠ []) {order : List Nat} (hs : IsSchedule order cells.length) :
    (P.principal order cells.length global locl control config).Sat fun out => Ext out cells.length P.d ∧
      ∀ c, c < cells.length →
        IsPrincipal P.d (P.plainStress (global.e c) (locl.e c) (control.e c) (config.e c)) (out.e c) := by
  unfold Plast.principal
  rw [if_neg (by simpa using hn)]
  refine Res.Sat.bind (parFor_sched hs (fun D (s : SViews × V2 ℝ) => s.1.Ok P.d cells.length ∧
    (∀ c, c ∉ D → ∀ t, s.1.total.e c t = 0) ∧ Ext s.2 cells.length P.d ∧ ∀ c ∈ D,
      IsPrincipal P.d (P.plainStress (global.e c) (locl.e c) (control.e c) (config.e c)) (s.2.e c))
    ⟨⟨List.length_replicate, ⟨rfl, rfl⟩, ⟨rfl, rfl⟩, ⟨rfl, rfl⟩, rfl, rfl, rfl⟩, fun _ _ _ => rfl, ⟨rfl, rfl⟩, by simp⟩ ?_) ?_
  · rintro D c ⟨w, out⟩ hc hD - ⟨k1, k2, k3, k4⟩
    refine (principalCell_ok hd hB hw hc k1 (k2 c hD) k3).mono ?_
    rintro ⟨w', out'⟩ ⟨j1, j2, j3, j4, j5⟩
    refine ⟨j1, fun r hr t => ?_, j3, fun r hr => ?_⟩
    · have hne : r ≠ c := by rintro rfl; exact hr (mem_insert_self _ _)
      rw [j2 r hne]
      exact k2 r (fun h => hr (mem_insert_of_mem h)) t
    · by_cases hne : r = c
      · subst hne; exact j5
      · dsimp only at j4 ⊢
        rw [j4 r hne]
        exact k4 r ((mem_insert.1 hr).resolve_left hne)
  · rintro ⟨w, out⟩ ⟨-, -, k3, k4⟩
    dsimp only
    rw [Res.pure_eq, Res.sat_ok]
    exact ⟨k3, fun c hc => k4 c (mem_range.2 hc)⟩

omit hd hB hw in
theorem IsPrincipal.congr_row {d : Nat} (hd : d = 2 ∨ d = 3) {σ row row' : Nat → ℝ}
    (h : ∀ t, t < d → row t = row' t) (k : IsPrincipal d σ row) : IsPrincipal d σ row' := by
  rcases hd with rfl | rfl
  · unfold IsPrincipal at k ⊢
    rw [← h 0 (by decide), ← h 1 (by decide)]
    exact ⟨k.1, fun h => by omega⟩
  · unfold IsPrincipal at k ⊢
    refine ⟨fun h => by omega, fun e => ?_⟩
    obtain ⟨err, k1, k2, k3, k4⟩ := k.2 e
    refine ⟨err, k1, ?_, fun i hi => ?_, fun l hl => ?_⟩
    · rw [← k2]
      exact sum_congr rfl fun i hi => (h i (mem_range.1 hi)).symm
    · rw [← h i hi]
      exact k3 i hi
    · obtain ⟨i, hi, hk⟩ := k4 l hl
      exact ⟨i, hi, by rw [← h i hi]; exact hk⟩

/-! ### The list -/

omit hd hB hw in
theorem named_names (w : PViews ℝ) : (P.named w).map Prod.fst = names P.mat.thermal := by
  unfold Plast.named names
  by_cases h : P.mat.thermal = true <;> simp [h]

omit hd hB hw in
theorem named_unique {w : PViews ℝ} {n : String} {v v' : V2 ℝ} (h : (n, v) ∈ P.named w) (h' : (n, v') ∈ P.named w) :
    v' = v := by
  have hn : ((P.named w).map Prod.fst).Nodup := by
    rw [named_names]
    cases P.mat.thermal <;> decide
  exact (Prod.mk.inj (List.inj_on_of_nodup_map hn h' h rfl)).2

omit hB hw in
theorem named_shows {w : PViews ℝ} {nc : Nat} (hok : w.Ok P.d nc)
    (hout : ∀ c, c < nc → Out P (global.e c) (locl.e c) (control.e c) (config.e c) c w) {n : String} {v : V2 ℝ}
    (h : (n, v) ∈ P.named w) : Ext v nc (width P.d n) ∧ ∀ c row, c < nc →
      (∀ t, t < width P.d n → row t = v.e c t) →
        Shows P n (global.e c) (locl.e c) (control.e c) (config.e c) row := by
  unfold Plast.named at h
  simp only [List.cons_append, List.nil_append, List.mem_cons, Prod.mk.injEq] at h
  rcases h with ⟨rfl, rfl⟩ | ⟨rfl, rfl⟩ | ⟨rfl, rfl⟩ | ⟨rfl, rfl⟩ | ⟨rfl, rfl⟩ | ⟨rfl, rfl⟩ | ⟨rfl, rfl⟩ | h
  · refine ⟨⟨hok.mult, rfl⟩, fun c row hc hr => ?_⟩
    unfold Shows
    simp
    rw [hr 0 (by simp [width])]
    exact (hout c hc).mult
  · refine ⟨⟨hok.accum, rfl⟩, fun c row hc hr => ?_⟩
    unfold Shows
    simp
    rw [hr 0 (by simp [width])]
    exact (hout c hc).accum
  · refine ⟨hok.dev, fun c row hc hr => ?_⟩
    unfold Shows
    simp
    exact dev_shows hd _ _ _ _ fun t ht => (hr t ht).trans ((hout c hc).dev t ht)
  · refine ⟨hok.elastic, fun c row hc hr => ?_⟩
    unfold Shows
    simp
    exact elastic_shows hd _ _ _ fun t ht => (hr t ht).trans ((hout c hc).elastic t ht)
  · refine ⟨hok.plastic, fun c row hc hr => ?_⟩
    unfold Shows
    simp
    exact (strainTensor_inj hd).2 fun t ht => (hr t ht).trans ((hout c hc).plastic t ht)
  · refine ⟨hok.cauchy, fun c row hc hr => ?_⟩
    unfold Shows
    simp
    exact cauchy_shows hd _ _ _ _ fun t ht => (hr t ht).trans ((hout c hc).cauchy t ht)
  · refine ⟨hok.back, fun c row hc hr => ?_⟩
    unfold Shows
    simp
    exact (stressTensor_inj hd).2 fun t ht => (hr t ht).trans ((hout c hc).back t ht)
  · by_cases hT : P.mat.thermal = true
    · rw [if_pos hT, List.mem_singleton, Prod.mk.injEq] at h
      obtain ⟨rfl, rfl⟩ := h
      refine ⟨hok.flux, fun c row hc hr => ?_⟩
      unfold Shows
      simp
      intro k hk
      rw [hr k hk, (hout c hc).flux hT k hk]
      unfold Plast.fluxOf
      ring
    · rw [if_neg hT] at h
      cases h

variable (hL : ∀ L ∈ P.bodyLoads, L.Ok P.d P.ndof cells) {sched : Nat → List Nat}
  (hs : ∀ k, IsSchedule (sched k) cells.length) {order : List Nat} (ho : IsSchedule order cells.length)
  (hn : cells ≠ []) {result : V2 ℝ} (hr0 : cells.length ≤ result.d0) (hr1 : (P.d + 1) * P.ndof ≤ result.d1)
include hL hs ho hn hr0 hr1

/-- What `evaluate` returns. -/
theorem evaluateOut_ok (plottable : List String) (pow23 : ℝ → ℝ) (init : Nat → Nat → Nat) :
    ∃ (out : V2 ℝ) (w : PViews ℝ) (ps : List (String × V2 ℝ)),
      P.evaluateOut plottable pow23 init sched order cells global locl node control config result =
        .ok (out, ps ++ (P.named w).filter fun e => decide (e.1 ∈ plottable)) ∧
      w.Ok P.d cells.length ∧ (∀ c, c < cells.length → Out P (global.e c) (locl.e c) (control.e c) (config.e c) c w) ∧
      ("principal stresses" ∉ plottable → ps = []) ∧
      ("principal stresses" ∈ plottable → ∃ v : V2 ℝ, ps = [("principal stresses", v)] ∧ Ext v cells.length P.d ∧
        ∀ c, c < cells.length →
          IsPrincipal P.d (P.plainStress (global.e c) (locl.e c) (control.e c) (config.e c)) (v.e c)) := by
  obtain ⟨w, e, hok, hout⟩ := evaluate_ok (fun a => |a|) pow23 hd hB hw hL hs init hr0 hr1
  unfold Plast.evaluateOut
  rw [e, Res.ok_bind]
  dsimp only
  by_cases hp : "principal stresses" ∈ plottable
  · obtain ⟨v, ev, hv, hpr⟩ := principal_ok hd hB hw hn ho
    rw [if_pos hp, hw.g0, ev, Res.ok_bind, Res.pure_eq, Res.ok_bind]
    exact ⟨_, w, _, rfl, hok, hout, fun h => absurd hp h, fun _ => ⟨v, rfl, hv, hpr⟩⟩
  · rw [if_neg hp, Res.pure_eq, Res.ok_bind]
    exact ⟨_, w, _, rfl, hok, hout, fun _ => rfl, fun h => absurd h hp⟩

/-- **C82**, names: only names of the input are stored, and all those that exist. -/
theorem C82_names (plottable : List String) (pow23 : ℝ → ℝ) (init : Nat → Nat → Nat) :
    (P.evaluateOut plottable pow23 init sched order cells global locl node control config result).Sat fun r =>
      ∀ name, (∃ view, (name, view) ∈ r.2) ↔
        name ∈ plottable ∧ (name = "principal stresses" ∨ name ∈ names P.mat.thermal) := by
  obtain ⟨out, w, ps, e, -, -, h1, h2⟩ := evaluateOut_ok hd hB hw hL hs ho hn hr0 hr1 plottable pow23 init
  rw [e, Res.sat_ok]
  intro name
  have hm : (∃ view, (name, view) ∈ P.named w) ↔ name ∈ names P.mat.thermal := by
    rw [← named_names w]
    simp
  by_cases hp : "principal stresses" ∈ plottable
  · obtain ⟨v, rfl, -⟩ := h2 hp
    simp only [List.singleton_append, List.mem_cons, Prod.mk.injEq, List.mem_filter, decide_eq_true_eq]
    rw [← hm]
    constructor
    · rintro ⟨view, ⟨rfl, rfl⟩ | ⟨h, h'⟩⟩
      · exact ⟨hp, .inl rfl⟩
      · exact ⟨h', .inr ⟨view, h⟩⟩
    · rintro ⟨h', rfl | ⟨view, h⟩⟩
      · exact ⟨v, .inl ⟨rfl, rfl⟩⟩
      · exact ⟨view, .inr ⟨h, h'⟩⟩
  · rw [h1 hp, List.nil_append]
    simp only [List.mem_filter, decide_eq_true_eq]
    rw [← hm]
    constructor
    · rintro ⟨view, h, h'⟩
      exact ⟨h', .inr ⟨view, h⟩⟩
    · rintro ⟨h', rfl | ⟨view, h⟩⟩
      · exact absurd h' hp
      · exact ⟨view, h, h'⟩

variable {nelems : Nat} {ord : List Nat} (hord : IsSchedule ord cells.length) (hnd : cells.Nodup)
  (hlt : ∀ g ∈ cells, g < nelems)
include hord hnd hlt

/-- **C82**, every name other than that of the principal stresses: the entry of the output has, on every cell of the
domain, the quantity of that name.  Missing: in three dimensions the Cauchy stress is off by `excess` times the
identity. -/
theorem C82_output_partial {plottable : List String} (pow23 : ℝ → ℝ) (init : Nat → Nat → Nat) {name : String}
    (hname : name ∈ names P.mat.thermal) (hp : name ∈ plottable) {entry : Option (V2 ℝ)}
    (he : ∀ v, entry = some v → v.d0 = nelems ∧ v.d1 = width P.d name) :
    (P.evaluateOut plottable pow23 init sched order cells global locl node control config result).Sat fun r =>
      Stored r.2 nelems cells ord name entry fun data => data.d0 = nelems ∧ data.d1 = width P.d name ∧
        ∀ c, c < cells.length →
          Shows P name (global.e c) (locl.e c) (control.e c) (config.e c) (data.e (atN cells c)) := by
  obtain ⟨out, w, ps, e, hok, hout, h1, h2⟩ := evaluateOut_ok hd hB hw hL hs ho hn hr0 hr1 plottable pow23 init
  rw [e, Res.sat_ok]
  have hne : name ≠ "principal stresses" := by
    rintro rfl
    revert hname
    cases P.mat.thermal <;> decide
  have hps : ∀ v, (name, v) ∉ ps := by
    intro v hv
    by_cases hpp : "principal stresses" ∈ plottable
    · obtain ⟨v', rfl, -⟩ := h2 hpp
      exact hne (Prod.mk.inj (List.mem_singleton.1 hv)).1
    · rw [h1 hpp] at hv
      cases hv
  obtain ⟨⟨n, view⟩, hv, rfl⟩ := List.mem_map.1 (by rw [← named_names w] at hname; exact hname)
  obtain ⟨hext, hsh⟩ := named_shows hd hok hout hv
  refine ⟨view, List.mem_append_right _ (List.mem_filter.2 ⟨hv, by simpa using hp⟩), fun v' hv' => ?_, ?_⟩
  · exact named_unique hv (List.mem_filter.1 ((List.mem_append.1 hv').resolve_left (hps v'))).1
  · refine (toMap_ok hord hnd hlt hext.1.ge fun v h => ⟨(he v h).1, (he v h).2.trans hext.2.symm⟩).mono ?_
    intro data hdat
    refine ⟨hdat.1, hdat.2.1.trans hext.2, fun c hc => hsh c _ hc fun t ht => ?_⟩
    exact hdat.2.2.1 c t hc (by rw [hext.2]; exact ht)

/-- The entry of the principal stresses. -/
theorem principal_output {plottable : List String} (pow23 : ℝ → ℝ) (init : Nat → Nat → Nat)
    (hp : "principal stresses" ∈ plottable) {entry : Option (V2 ℝ)}
    (he : ∀ v, entry = some v → v.d0 = nelems ∧ v.d1 = P.d) :
    (P.evaluateOut plottable pow23 init sched order cells global locl node control config result).Sat fun r =>
      Stored r.2 nelems cells ord "principal stresses" entry fun data => data.d0 = nelems ∧ data.d1 = P.d ∧
        ∀ c, c < cells.length → IsPrincipal P.d (P.plainStress (global.e c) (locl.e c) (control.e c) (config.e c))
          (data.e (atN cells c)) := by
  obtain ⟨out, w, ps, e, hok, hout, h1, h2⟩ := evaluateOut_ok hd hB hw hL hs ho hn hr0 hr1 plottable pow23 init
  rw [e, Res.sat_ok]
  obtain ⟨v, rfl, hext, hpr⟩ := h2 hp
  refine ⟨v, List.mem_cons_self .., fun v' hv' => ?_, ?_⟩
  · rw [List.singleton_append, List.mem_cons] at hv'
    rcases hv' with h | h
    · exact (Prod.mk.inj h).2
    · exfalso
      have : "principal stresses" ∈ names P.mat.thermal := by
        rw [← named_names w]
        exact List.mem_map.2 ⟨_, (List.mem_filter.1 h).1, rfl⟩
      revert this
      cases P.mat.thermal <;> decide
  · refine (toMap_ok hord hnd hlt hext.1.ge fun v h => ⟨(he v h).1, (he v h).2.trans hext.2.symm⟩).mono ?_
    intro data hdat
    refine ⟨hdat.1, hdat.2.1.trans hext.2, fun c hc => (hpr c hc).congr_row hd fun t ht => ?_⟩
    exact (hdat.2.2.1 c t hc (by rw [hext.2]; exact ht)).symm

end

end Plato.Plast
