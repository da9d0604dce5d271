import Verif.Plast.Props
import Verif.J2.Track
import Verif.Tm.Track

/-!
# C72: derivatives of the residual of plasticity
-/

namespace Plato.Plast
open Finset Plato Plato.Mech Plato.Thermal Plato.J2 Plato.Dyn
open Plato.Tm (fluxRow heatRow fluxRow_tracks heatRow_tracks)

/-- The residual evaluated with automatic differentiation values. -/
noncomputable def Plast.lift (P : Plast ℝ) (pE pP pF : Fad → Fad) : Plast Fad where
  mat := P.mat.lift pE pP
  cubWeight := Fad.const P.cubWeight
  bulk := Fad.const P.bulk
  kappa := Fad.const P.kappa
  cond := Fad.const P.cond
  pen := pF
  bodyLoads := P.bodyLoads.map BodyLoad.lift
  load := Fad.const P.load

/-- Where the residual of a cell is differentiable: the cell has a volume, moduli are not zero, the penalty and
the power of the volume have the derivatives computed for them. -/
structure Regular (P : Plast ℝ) (pF powF : Fad → Fad) (pow23 : ℝ → ℝ) (D : GData ℝ) : Prop where
  det : detForm P.d D.loc.x ≠ 0
  pen : PenOk pF P.pen (meanDensity (P.d + 1) D.loc.z)
  bulk : P.penOf D.loc.z * P.bulk ≠ 0
  shear : P.mat.shear ≠ 0
  pow : PenOk powF pow23 (|detForm P.d D.loc.x| * P.cubWeight)

theorem Regular.same {P : Plast ℝ} {pF powF : Fad → Fad} {pow23 : ℝ → ℝ} {D D' : GData ℝ}
    (h : Regular P pF powF pow23 D) (hz : D'.loc.z = D.loc.z) (hx : D'.loc.x = D.loc.x) : Regular P pF powF pow23 D' := by
  obtain ⟨h1, h2, h3, h4, h5⟩ := h
  exact ⟨hx ▸ h1, hz ▸ h2, hz ▸ h3, h4, hx ▸ h5⟩

section Tracks
variable {E : Type} [NormedAddCommGroup E] [NormedSpace ℝ E] {L : ℕ → E →L[ℝ] ℝ} {K : ℕ} {x : E}
  {P : Plast ℝ} {pE pP pF powF : Fad → Fad} {pow23 : ℝ → ℝ} (hd : P.d = 2 ∨ P.d = 3)
  {UF CF NF ZF : ℕ → Fad} {XF : ℕ → ℕ → Fad} {U C N Z : E → ℕ → ℝ} {X : E → ℕ → ℕ → ℝ}
  (hU : ∀ l, l < (P.d + 1) * P.ndof → Tracks L K x (UF l) fun y => U y l)
  (hC : ∀ i, i < localDofs P.d → Tracks L K x (CF i) fun y => C y i)
  (hN : ∀ l, l < (P.d + 1) * P.d → Tracks L K x (NF l) fun y => N y l)
  (hZ : ∀ a, a < P.d + 1 → Tracks L K x (ZF a) fun y => Z y a)
  (hX : ∀ a k, a < P.d + 1 → k < P.d → Tracks L K x (XF a k) fun y => X y a k)

theorem pressRow_tracks {d ndof : Nat} {vF aF : Fad} {vR aR : E → ℝ} {GF : Nat → Nat → Fad} {GR : E → Nat → Nat → ℝ}
    (hv : Tracks L K x vF vR) (ha : Tracks L K x aF aR)
    (hG : ∀ n j, j < d → Tracks L K x (GF n j) fun y => GR y n j) (r : Nat) :
    Tracks L K x (pressRow d ndof vF aF GF r) fun y => pressRow d ndof (vR y) (aR y) (GR y) r := by
  unfold pressRow
  simp only [Finset.sum_apply]
  exact Tracks.sum _ fun k hk => Tracks.sum _ fun n _ => single_tracks
    (((Tracks.one.mul hv).mul ha).mul (hG n k (mem_range.1 hk)))

theorem scaledLoad_tracks (B : BodyLoad ℝ) (s : ℝ) {d ndof c gc : ℕ}
    (hZ : ∀ n, n < d + 1 → Tracks L K x (ZF n) fun y => Z y n) (r : ℕ) :
    Tracks L K x (B.lift.row d ndof c gc ZF (-1 * Fad.const s) r) fun y => B.row d ndof c gc (Z y) (-1 * s) r := by
  unfold BodyLoad.row BodyLoad.lift
  simp only [Finset.sum_apply]
  refine Tracks.sum _ fun p _ => Tracks.sum _ fun a _ => single_tracks ?_
  exact ((((((Tracks.one.neg.mul (Tracks.const _)).mul (at0_const_tracks _ _)).mul (at0_const_tracks _ _)).mul
    (at0_const_tracks _ _)).mul (Tracks.const _)).mul (meanDensity_tracks (Nat.succ_ne_zero _) hZ))

include hU in
theorem valueOf_tracks {off : Nat} (ho : off < P.ndof) :
    Tracks L K x ((P.lift pE pP pF).valueOf off UF) fun y => P.valueOf off (U y) :=
  interp_tracks (fun _ _ => at0_const_tracks _ _) fun n hn => hU _ (by rw [Nat.mul_comm]; exact dof_lt hn ho)

include hN in
theorem projOf_tracks {k : Nat} (hk : k < P.d) :
    Tracks L K x ((P.lift pE pP pF).projOf NF k) fun y => P.projOf (N y) k :=
  interp_tracks (fun _ _ => at0_const_tracks _ _) fun n hn => hN _ (by
    show P.d * n + 0 + k < _
    rw [Nat.mul_comm, Nat.add_zero]; exact dof_lt hn hk)

include hZ in
theorem plastLoadRow_tracks (c gc r : ℕ) : Tracks L K x ((P.lift pE pP pF).loadRow c gc ZF r)
    fun y => P.loadRow c gc (Z y) r := by
  unfold Plast.loadRow Plast.lift
  dsimp only
  induction P.bodyLoads with
  | nil => exact Tracks.zero
  | cons B Bs ih =>
    simp only [List.map_cons, List.sum_cons, Pi.add_apply] at ih ⊢
    exact (scaledLoad_tracks B _ hZ r).add ih

include hd hU hX in
theorem gradOf_tracks (hdet : detForm P.d (X x) ≠ 0) {off : Nat} (ho : off < P.ndof) {k : Nat} (hk : k < P.d) :
    Tracks L K x ((P.lift pE pP pF).gradOf off UF XF k) fun y => P.gradOf off (U y) (X y) k :=
  Tracks.sum _ fun n hn => (hU _ (dof_lt (mem_range.1 hn) ho)).mul (gradForm_tracks (.inr hd) hX hdet hk)

variable {D : GData ℝ} (hD : D = ⟨⟨U x, D.loc.up, C x, D.loc.cp, Z x, X x⟩, N x⟩) (hR : Regular P pF powF pow23 D)
include hd hU hC hN hZ hX hD hR

theorem solidRow_tracks (r : ℕ) : Tracks L K x ((P.lift pE pP pF).solidRow Fad.fabs powF UF CF NF ZF XF r)
    fun y => P.solidRow (fun a => |a|) pow23 (U y) (C y) (N y) (Z y) (X y) r := by
  rw [hD] at hR
  obtain ⟨h1, h2, h3, h4, h5⟩ := hR
  dsimp only at h1 h2 h3 h5
  have hd' : P.d = 1 ∨ P.d = 2 ∨ P.d = 3 := .inr hd
  have hle := stressTerms_eq hd
  have hnv : numVoigt P.d ≤ stressTerms P.d := by rcases hd with h | h <;> rw [h] <;> decide
  have hG : ∀ n j, j < P.d → Tracks L K x (gradForm P.d XF n j) fun y => gradForm P.d (X y) n j :=
    fun n j hj => gradForm_tracks hd' hX h1 hj
  have hv : Tracks L K x ((P.lift pE pP pF).volOf Fad.fabs XF) fun y => P.volOf (fun a => |a|) (X y) :=
    ((detForm_tracks hd' hX).fabs h1).mul (Tracks.const _)
  have hp : Tracks L K x ((P.lift pE pP pF).penOf ZF) fun y => P.penOf (Z y) :=
    PenOk.tracks (meanDensity_tracks (Nat.succ_ne_zero _) hZ) h2
  have htot := fun t => total_tracks (P := P.mat) (pE := pE) (pP := pP) hd hU hX h1 t
  have hdev : ∀ t, t < numVoigt P.d → Tracks L K x ((P.lift pE pP pF).devOf UF CF ZF XF t)
      fun y => P.devOf (U y) (C y) (Z y) (X y) t := by
    intro t ht
    unfold Plast.devOf
    refine devForm_tracks (P := P.mat) hd (hp.mul (Tracks.const _)) (fun s hs => ?_) (ht.trans_le hnv)
    have hs : s < stressTerms P.d := hs
    unfold Plast.elasticAt J2.elasticOf
    refine ((htot s).sub (hC _ (by omega))).sub ?_
    exact Tracks.ite (therm_tracks (P := P.mat) hU) Tracks.zero
  have hpr : Tracks L K x ((P.lift pE pP pF).pressOf UF) fun y => P.pressOf (U y) :=
    (valueOf_tracks hU P.poff_lt).mul (Tracks.const _)
  have hst : ∀ k, k < P.d → Tracks L K x (-(P.lift pE pP pF).stabOf Fad.fabs powF UF NF ZF XF k)
      fun y => -P.stabOf (fun a => |a|) pow23 (U y) (N y) (Z y) (X y) k := by
    intro k hk
    unfold Plast.stabOf
    refine Tracks.neg (Tracks.mul (Tracks.mul (Tracks.mul (Tracks.const _) ?_) (Tracks.sub (Tracks.mul (Tracks.const _)
      (gradOf_tracks hd hU hX h1 P.poff_lt hk)) (projOf_tracks hN hk))) hp)
    exact (PenOk.tracks hv h5).div (two_tracks.mul (Tracks.const _)) (mul_ne_zero two_ne_zero h4)
  have hgap : Tracks L K x ((P.lift pE pP pF).gapOf UF ZF XF) fun y => P.gapOf (U y) (Z y) (X y) := by
    unfold Plast.gapOf Plast.divOf
    refine (Tracks.const _).mul (((Tracks.sum _ fun k _ => htot k).sub ?_).sub (hpr.div (hp.mul (Tracks.const _)) h3))
    unfold Plast.thermVolOf
    by_cases hT : P.mat.thermal = true
    · have hT' : (P.lift pE pP pF).mat.thermal = true := hT
      have hdn : P.d < P.ndof := by unfold Plast.ndof J2.ndof; rw [if_pos hT]; exact Nat.lt_add_of_pos_right (by omega)
      simp only [hT, hT', if_true]
      exact (three_tracks.mul (Tracks.const _)).mul (((Tracks.const _).mul (valueOf_tracks hU hdn)).sub (Tracks.const _))
    · have hT' : ¬ (P.lift pE pP pF).mat.thermal = true := hT
      simp only [hT, hT']
      exact Tracks.zero
  unfold Plast.solidRow
  refine ((((stressRow_tracks hd' hv hdev hG r).add ?_).add (pressRow_tracks hv hpr hG r)).add
    (fluxRow_tracks hv hst hG r)).add (heatRow_tracks (fun _ => at0_const_tracks _ _) hv hgap r)
  by_cases hT : P.mat.thermal = true
  · have hT' : (P.lift pE pP pF).mat.thermal = true := hT
    have hdn : P.d < P.ndof := by unfold Plast.ndof J2.ndof; rw [if_pos hT]; exact Nat.lt_add_of_pos_right (by omega)
    simp only [hT, hT', if_true]
    refine fluxRow_tracks (d := P.d) hv (fun k hk => Tracks.neg ?_) hG r
    exact ((Tracks.one.neg.mul (hp.mul (Tracks.const _))).mul (Tracks.const _)).mul (gradOf_tracks hd hU hX h1 hdn hk)
  · have hT' : ¬ (P.lift pE pP pF).mat.thermal = true := hT
    simp only [hT, hT']
    exact Tracks.zero

theorem row_tracks (c gc r : ℕ) : Tracks L K x ((P.lift pE pP pF).row Fad.fabs powF c gc UF CF NF ZF XF r)
    fun y => P.row (fun a => |a|) pow23 c gc (U y) (C y) (N y) (Z y) (X y) r :=
  (solidRow_tracks hd hU hC hN hZ hX hD hR r).add (plastLoadRow_tracks hZ c gc r)

end Tracks

/-! ## Meshes -/

/-- The evaluators of the derivatives. -/
noncomputable def plastF (powF : Fad → Fad) (M : FeModel) (P : Nat → Plast ℝ) (pE pP pF : Nat → Fad → Fad)
    (init : Nat → Nat → Nat → Nat) (eR : Nat → Nat → List Nat) : GlobalEv Fad :=
  plastEv Fad.fabs powF M (fun k => (P k).lift (pE k) (pP k) (pF k)) init eR

theorem lift_ok {M : FeModel} {P : Nat → Plast ℝ} (h : POk M P) (pE pP pF : Nat → Fad → Fad) :
    POk M fun k => (P k).lift (pE k) (pP k) (pF k) where
  j := ⟨h.j.dim, h.j.d, h.j.ndof, fun k hk => by
    show ((P k).mat.basis.map Fad.const).length = _
    rw [List.length_map]
    exact h.j.basis k hk⟩
  loads := by
    intro k hk L hL
    obtain ⟨B, hB, rfl⟩ := List.mem_map.1 hL
    have := h.loads k hk B hB
    exact ⟨by simpa [BodyLoad.lift] using this.w, this.b0, this.b1, by simpa [BodyLoad.lift] using this.f,
      fun gc hgc => by simpa [BodyLoad.lift] using this.det gc hgc, this.dof⟩

/-- The numbers of a cell with derivatives follow the numbers of that cell. -/
structure GFollows {E : Type} [NormedAddCommGroup E] [NormedSpace ℝ E] (M : FeModel) (nl : ℕ) (L : ℕ → E →L[ℝ] ℝ) (K : ℕ)
    (x : E) (DF : GData Fad) (D : E → GData ℝ) : Prop where
  loc : Follows M nl L K x DF.loc fun y => (D y).loc
  n : ∀ l, l < M.npc * M.dim → Tracks L K x (DF.n l) fun y => (D y).n l

/-- Sums over the cells of all domains. -/
theorem sum_cells {M : FeModel} (hM : M.Ok) (hB : Blocks M) {V : Type} [AddCommMonoid V] (g : Nat → V)
    (h0 : ∀ cell, cell < M.nc → (∀ k, k < M.domains.length → cell ∉ dom M k) → g cell = 0) :
    ∑ k ∈ range M.domains.length, ∑ c ∈ range (dom M k).length, g (atN (dom M k) c) = ∑ cell ∈ range M.nc, g cell := by
  classical
  have h1 : ∀ k ∈ range M.domains.length, ∑ c ∈ range (dom M k).length, g (atN (dom M k) c) =
      ∑ cell ∈ (dom M k).toFinset, g cell := by
    intro k hk
    have hnd := hB.nodup k (mem_range.1 hk)
    refine sum_bij (fun c _ => atN (dom M k) c) (fun c hc => List.mem_toFinset.2 (atN_mem (mem_range.1 hc))) ?_ ?_
      fun _ _ => rfl
    · intro b hb c hc hbc
      have e1 : atN (dom M k) b = (dom M k)[b]'(mem_range.1 hb) := at0_eq (mem_range.1 hb)
      have e2 : atN (dom M k) c = (dom M k)[c]'(mem_range.1 hc) := at0_eq (mem_range.1 hc)
      rw [e1, e2] at hbc
      exact (hnd.getElem_inj_iff).1 hbc
    · intro cell hcell
      obtain ⟨b, hb, e⟩ := mem_atN (List.mem_toFinset.1 hcell)
      exact ⟨b, mem_range.2 hb, e⟩
  rw [sum_congr rfl h1, ← sum_biUnion]
  · refine sum_subset ?_ ?_
    · intro cell hcell
      obtain ⟨k, hk, hc⟩ := mem_biUnion.1 hcell
      exact mem_range.2 (dom_lt hM (mem_range.1 hk) (List.mem_toFinset.1 hc))
    · intro cell hcell hn
      refine h0 cell (mem_range.1 hcell) fun k hk hc => hn ?_
      exact mem_biUnion.2 ⟨k, mem_range.2 hk, List.mem_toFinset.2 hc⟩
  · intro j hj k hk hjk
    refine disjoint_left.2 fun cell h1 h2 => ?_
    exact hB.disjoint j k (mem_range.1 hj) (mem_range.1 hk) hjk cell (List.mem_toFinset.1 h1) (List.mem_toFinset.1 h2)

section Rows
variable {M : FeModel} (hM : M.Ok) {P : Nat → Plast ℝ} (h : POk M P) (pow23 : ℝ → ℝ) {B : Loads} (hL : LoadsOk M (P 0) B)
  (init : Nat → Nat → Nat → Nat)
include hM h hL

/-- The residual from the rows of the cells. -/
theorem residual_rows {eR : Nat → Nat → List Nat} (he : EvSched M eR) {A : GArgs ℝ} (hA : A.Ok M (localDofs M.dim))
    {sch : Nat → Nat → List Nat} (hs : WsSched M sch) (ha : AddSched M (M.npc * M.ndof) sch) :
    (plastResidual M P pow23 B init eR sch A).Sat fun r => r.length = M.nn * M.ndof ∧ ∀ w : Nat → ℝ,
      ∑ q ∈ range (M.nn * M.ndof), at0 r q * w q + boundaryWork M P B A w =
        ∑ k ∈ range M.domains.length, ∑ c ∈ range (dom M k).length, ∑ i ∈ range (M.npc * M.ndof),
          plastRow (fun a => |a|) pow23 M P k c (gNumbers M A (atN (dom M k) c)) i *
            w (cellDof M.npc M.ndof M.c2n (atN (dom M k) c) i) := by
  have h0 : 0 < M.domains.length := List.length_pos_of_ne_nil hM.some_domain
  have hrow : ∃ row : Nat → Nat → ℝ, (∀ q, scatteredVec M.npc M.ndof M.c2n none M.nc row q =
      -(P 0).load * boundaryForce M (P 0) B A.loc.x q) := by
    obtain ⟨r, -, -, -, hq⟩ := boundary_ok hM h h0 hL A.loc.x (g := ⟨M.nc, M.npc, M.dim, M.cellX A.loc.x⟩) rfl rfl rfl
      fun _ _ _ _ _ _ => rfl
    exact ⟨r.e, hq⟩
  obtain ⟨row, hrow⟩ := hrow
  refine (value_work hM (plastEv_rowAdd (fun a => |a|) pow23 h init he) hA hs ha (row := row)
    fun g g0 g1 g2 g3 => (boundary_ok hM h h0 hL A.loc.x g0 g1 g2 g3).mono fun r hr =>
      ⟨hr.1, hr.2.1, fun q => (hr.2.2 q).trans (hrow q).symm⟩).mono ?_
  rintro r ⟨hl, hw⟩
  refine ⟨hl, fun w => ?_⟩
  rw [hw w]
  unfold boundaryWork
  simp only [hrow, neg_mul, sum_neg_distrib, mul_assoc, ← mul_sum]
  rw [neg_add_cancel_right]
  rfl

end Rows

section Deriv
variable {M : FeModel} (hM : M.Ok) {P : Nat → Plast ℝ} (h : POk M P) {pow23 : ℝ → ℝ} {B : Loads}
  (hL : LoadsOk M (P 0) B) (init : Nat → Nat → Nat → Nat) {pE pP pF : Nat → Fad → Fad} {powF : Fad → Fad}
  {E : Type} [NormedAddCommGroup E] [NormedSpace ℝ E] {x : E} {a : E → GArgs ℝ}
  (hA : ∀ y, (a y).Ok M (localDofs M.dim)) {mk : GMakers ℝ Fad} {cols : Nat} {L : Nat → Nat → E →L[ℝ] ℝ}
  (hF : ∀ cell, GFollows M (localDofs M.dim) (L cell) cols x (gData M (localDofs M.dim) mk (a x) cell)
    fun y => gNumbers M (a y) cell)
  (hR : EachCell M fun k cell => Regular (P k) (pF k) powF pow23 (gNumbers M (a x) cell))
  {eR : E → Nat → Nat → List Nat} (he : ∀ y, EvSched M (eR y)) {sch : E → Nat → Nat → List Nat}
  (hs : ∀ y, WsSched M (sch y)) (ha : ∀ y, AddSched M (M.npc * M.ndof) (sch y))

include h hF hR in
theorem plastRow_tracks {k c : Nat} (hk : k < M.domains.length) (hc : c < (dom M k).length) (i : Nat) :
    Tracks (L (atN (dom M k) c)) cols x
      (plastRow Fad.fabs powF M (fun k => (P k).lift (pE k) (pP k) (pF k)) k c
        (gData M (localDofs M.dim) mk (a x) (atN (dom M k) c)) i)
      fun y => plastRow (fun a => |a|) pow23 M P k c (gNumbers M (a y) (atN (dom M k) c)) i := by
  have e : (P k).d = M.dim := h.j.d k hk
  have en : (P k).ndof = M.ndof := h.j.ndof k hk
  have hd : (P k).d = 2 ∨ (P k).d = 3 := by rw [e]; exact h.j.dim
  have hf := hF (atN (dom M k) c)
  unfold plastRow
  refine row_tracks (P := P k) hd (U := fun y => (gNumbers M (a y) (atN (dom M k) c)).loc.u)
    (C := fun y => (gNumbers M (a y) (atN (dom M k) c)).loc.c) (N := fun y => (gNumbers M (a y) (atN (dom M k) c)).n)
    (Z := fun y => (gNumbers M (a y) (atN (dom M k) c)).loc.z) (X := fun y => (gNumbers M (a y) (atN (dom M k) c)).loc.x)
    (D := gNumbers M (a x) (atN (dom M k) c))
    (fun l hl => hf.loc.u l (by rw [e, en] at hl; exact hl)) (fun l hl => hf.loc.c l (by rwa [← e]))
    (fun l hl => hf.n l (by rw [e] at hl; exact hl)) (fun l hl => hf.loc.z l (by rw [e] at hl; exact hl))
    (fun b j hb hj => hf.loc.x b j (by rw [e] at hb; exact hb) (by rwa [← e])) rfl (hR k hk _ (atN_mem hc)) c _ i

include hM h hL hA hF hR he hs ha in
/-- Residuals for arguments that depend on `y`, and their derivatives. -/
theorem plast_deriv : ∃ r : E → List ℝ, (∀ y, plastResidual M P pow23 B init (eR y) (sch y) (a y) = .ok (r y) ∧
      (r y).length = M.nn * M.ndof) ∧ ∀ w : Nat → ℝ,
    HasFDerivAt (fun y => ∑ q ∈ range (M.nn * M.ndof), at0 (r y) q * w q + boundaryWork M P B (a y) w)
      (∑ k ∈ range M.domains.length, ∑ c ∈ range (dom M k).length, ∑ i ∈ range (M.npc * M.ndof),
        w (cellDof M.npc M.ndof M.c2n (atN (dom M k) c) i) • ∑ l ∈ range cols,
        (plastRow Fad.fabs powF M (fun k => (P k).lift (pE k) (pP k) (pF k)) k c
          (gData M (localDofs M.dim) mk (a x) (atN (dom M k) c)) i).dx l • L (atN (dom M k) c) l) x := by
  have hV := fun y => residual_rows hM h pow23 hL init (he y) (hA y) (hs y) (ha y)
  choose r hr hl hw using hV
  refine ⟨r, fun y => ⟨hr y, hl y⟩, fun w => ?_⟩
  rw [funext fun y => hw y w]
  refine HasFDerivAt.fun_sum fun k hk => HasFDerivAt.fun_sum fun c hc => HasFDerivAt.fun_sum fun i _ => ?_
  exact (plastRow_tracks h hF hR (mem_range.1 hk) (mem_range.1 hc) i).deriv.mul_const _

include hM h hL hA hF hR he hs ha in
/-- Residuals and matrices of the cells. -/
theorem plast_gradient (hB : Blocks M) (hcol : cols ≠ 0) {eF : Nat → Nat → List Nat} (heF : EvSched M eF)
    {schF : Nat → Nat → List Nat} (hsF : GSched M schF) :
    ∃ (r : E → List ℝ) (J : V3 ℝ), (∀ y, plastResidual M P pow23 B init (eR y) (sch y) (a y) = .ok (r y) ∧
      (r y).length = M.nn * M.ndof) ∧
      globalGradient M (localDofs M.dim) cols mk (plastF powF M P pE pP pF init eF) schF (a x) = .ok J ∧ ∀ w : Nat → ℝ,
      HasFDerivAt (fun y => ∑ q ∈ range (M.nn * M.ndof), at0 (r y) q * w q + boundaryWork M P B (a y) w)
        (∑ cell ∈ range M.nc, ∑ i ∈ range (M.npc * M.ndof), w (cellDof M.npc M.ndof M.c2n cell i) •
          ∑ l ∈ range cols, J.e cell i l • L cell l) x := by
  obtain ⟨r, hr, hd⟩ := plast_deriv hM h hL init hA hF hR he hs ha (pE := pE) (pP := pP)
  obtain ⟨J, hJ, -, h1, h2⟩ := gradient_ok hM hB hsF hcol (mk := mk)
    (plastEv_rowAdd Fad.fabs powF (lift_ok h pE pP pF) init heF) (hA x)
  refine ⟨r, J, hr, hJ, fun w => (hd w).congr_fderiv ?_⟩
  rw [← sum_cells hM hB]
  · refine sum_congr rfl fun k hk => sum_congr rfl fun c hc => sum_congr rfl fun i hi => ?_
    congr 1
    refine sum_congr rfl fun l hl => ?_
    rw [h1 k (mem_range.1 hk) c (mem_range.1 hc) i l (mem_range.1 hi) (mem_range.1 hl)]
  · intro cell hcell hn
    refine sum_eq_zero fun i hi => ?_
    rw [sum_eq_zero, smul_zero]
    intro l hl
    rw [h2 cell hcell hn i l (mem_range.1 hi) (mem_range.1 hl), zero_smul]

end Deriv

end Plato.Plast
