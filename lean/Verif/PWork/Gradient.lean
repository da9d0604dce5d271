import Verif.PWork.Steps
import Verif.Plast.Track

/-!
# C78: derivatives of the criteria of plasticity
-/

namespace Plato.PWork
open Finset Plato Plato.Mech Plato.J2 Plato.Plast

/-- The criterion evaluated with automatic differentiation values. -/
noncomputable def WorkCrit.lift (P : WorkCrit ℝ) (pF : Fad → Fad) : WorkCrit Fad where
  mat := P.mat.lift (fun a => a) (fun a => a)
  plastic := P.plastic
  cubWeight := Fad.const P.cubWeight
  bulk := Fad.const P.bulk
  pen := pF

section Tracks
variable {E : Type} [NormedAddCommGroup E] [NormedSpace ℝ E] {L : ℕ → E →L[ℝ] ℝ} {N : ℕ} {x : E}

theorem half_tracks : Tracks L N x (1 / 2 : Fad) fun _ => (1 / 2 : ℝ) :=
  Tracks.one.div two_tracks two_ne_zero

variable {P : WorkCrit ℝ} {pF : Fad → Fad} (hd : P.mat.d = 2 ∨ P.mat.d = 3)
include hd

theorem cauchyForm_tracks {KF mF : Fad} {K m : E → ℝ} (hK : Tracks L N x KF K) (hm : Tracks L N x mF m) {EF : ℕ → Fad}
    {e : E → ℕ → ℝ} (he : ∀ t, t < stressTerms P.mat.d → Tracks L N x (EF t) fun y => e y t) {t : ℕ}
    (ht : t < stressTerms P.mat.d) :
    Tracks L N x (cauchyForm P.mat.d KF mF EF t) fun y => cauchyForm P.mat.d (K y) (m y) (e y) t := by
  have h4 : 4 ≤ stressTerms P.mat.d := by rcases hd with h | h <;> rw [h] <;> decide
  have hs := ((he 0 (by omega)).add (he 1 (by omega))).add (he 3 (by omega))
  unfold cauchyForm
  exact Tracks.ite (((two_tracks.mul hm).mul ((he t ht).sub (hs.div three_tracks (by norm_num)))).add (hK.mul hs))
    (hm.mul (he t ht))

theorem elasticAt_tracks {UF CF : ℕ → Fad} {XF : ℕ → ℕ → Fad} {U C : E → ℕ → ℝ} {X : E → ℕ → ℕ → ℝ}
    (hU : ∀ l, l < (P.mat.d + 1) * P.mat.ndof → Tracks L N x (UF l) fun y => U y l)
    (hC : ∀ i, i < localDofs P.mat.d → Tracks L N x (CF i) fun y => C y i)
    (hX : ∀ a k, a < P.mat.d + 1 → k < P.mat.d → Tracks L N x (XF a k) fun y => X y a k)
    (hdet : detForm P.mat.d (X x) ≠ 0) {t : ℕ} (ht : t < stressTerms P.mat.d) :
    Tracks L N x ((P.lift pF).elasticAt UF CF XF t) fun y => P.elasticAt (U y) (C y) (X y) t := by
  have hle := stressTerms_eq hd
  unfold WorkCrit.elasticAt J2.elasticOf
  refine ((total_tracks hd hU hX hdet t).sub (hC _ (by omega))).sub ?_
  exact Tracks.ite (therm_tracks hU) Tracks.zero

end Tracks

/-- The numbers of a cell with derivatives follow the numbers of that cell. -/
structure WFollows {E : Type} [NormedAddCommGroup E] [NormedSpace ℝ E] (M : FeModel) (nl : ℕ) (L : ℕ → E →L[ℝ] ℝ) (N : ℕ)
    (x : E) (DF : CellData Fad) (D : E → CellData ℝ) : Prop where
  cur : Follows M nl L N x DF D
  up : ∀ l, l < M.npc * M.ndof → Tracks L N x (DF.up l) fun y => (D y).up l

/-- Where the work of a cell is differentiable: the cell has a volume and the penalty the derivative computed for it. -/
structure Regular (P : WorkCrit ℝ) (pF : Fad → Fad) (D : CellData ℝ) : Prop where
  det : detForm P.mat.d D.x ≠ 0
  pen : PenOk pF P.pen (meanDensity (P.mat.d + 1) D.z)

theorem work_tracks {E : Type} [NormedAddCommGroup E] [NormedSpace ℝ E] {M : FeModel} {P : WorkCrit ℝ} {pF : Fad → Fad}
    (hd : M.dim = 2 ∨ M.dim = 3) (e : P.mat.d = M.dim) (en : P.mat.ndof = M.ndof) {L : ℕ → E →L[ℝ] ℝ} {N : ℕ} {x : E}
    {DF : CellData Fad} {D : E → CellData ℝ} (h : WFollows M (localDofs M.dim) L N x DF D) (hR : Regular P pF (D x)) :
    Tracks L N x ((P.lift pF).work Fad.fabs DF) fun y => P.work (fun a => |a|) (D y) := by
  have hd' : P.mat.d = 2 ∨ P.mat.d = 3 := by rw [e]; exact hd
  have hle := stressTerms_eq hd'
  obtain ⟨h, hup⟩ := h
  have hU : ∀ l, l < (P.mat.d + 1) * P.mat.ndof → Tracks L N x (DF.u l) fun y => (D y).u l := fun l hl => h.u l (by
    rw [e, en] at hl; exact hl)
  have hUp : ∀ l, l < (P.mat.d + 1) * P.mat.ndof → Tracks L N x (DF.up l) fun y => (D y).up l := fun l hl => hup l (by
    rw [e, en] at hl; exact hl)
  have hC : ∀ i, i < localDofs P.mat.d → Tracks L N x (DF.c i) fun y => (D y).c i := fun i hi => h.c i (by rwa [← e])
  have hCp : ∀ i, i < localDofs P.mat.d → Tracks L N x (DF.cp i) fun y => (D y).cp i := fun i hi => h.cp i (by rwa [← e])
  have hZ : ∀ a, a < P.mat.d + 1 → Tracks L N x (DF.z a) fun y => (D y).z a := fun a ha => h.z a (by rw [e] at ha; exact ha)
  have hX : ∀ a k, a < P.mat.d + 1 → k < P.mat.d → Tracks L N x (DF.x a k) fun y => (D y).x a k :=
    fun a k ha hk => h.x a k (by rw [e] at ha; exact ha) (by rwa [← e])
  have hv : Tracks L N x ((P.lift pF).volOf Fad.fabs DF.x) fun y => P.volOf (fun a => |a|) (D y).x :=
    ((detForm_tracks (.inr hd') hX).fabs hR.det).mul (Tracks.const _)
  have hp : Tracks L N x ((P.lift pF).penOf DF.z) fun y => P.penOf (D y).z :=
    PenOk.tracks (meanDensity_tracks (Nat.succ_ne_zero _) hZ) hR.pen
  have hE := fun t (ht : t < stressTerms P.mat.d) => elasticAt_tracks (pF := pF) hd' hU hC hX hR.det ht
  have hEp := fun t (ht : t < stressTerms P.mat.d) => elasticAt_tracks (pF := pF) hd' hUp hCp hX hR.det ht
  have hK := hp.mul (Tracks.const (L := L) (N := N) (x := x) P.bulk)
  have hm := hp.mul (Tracks.const (L := L) (N := N) (x := x) P.mat.shear)
  unfold WorkCrit.work
  refine (Tracks.sum _ fun t ht => Tracks.mul (half_tracks.mul (Tracks.add ?_ ?_)) ?_).mul hv
  · exact cauchyForm_tracks hd' hK hm hE (mem_range.1 ht)
  · exact cauchyForm_tracks hd' hK hm hEp (mem_range.1 ht)
  · have ht : t < stressTerms P.mat.d := mem_range.1 ht
    unfold WorkCrit.misfitOf
    by_cases hpl : P.plastic = true
    · have hpl' : (P.lift pF).plastic = true := hpl
      simp only [hpl, hpl', if_true]
      exact (hC _ (by omega)).sub (hCp _ (by omega))
    · have hpl' : ¬(P.lift pF).plastic = true := hpl
      simp only [hpl, hpl']
      exact (hE t ht).sub (hEp t ht)

/-- The criteria of the domains with automatic differentiation. -/
noncomputable def workF (M : FeModel) (P : Nat → WorkCrit ℝ) (pF : Nat → Fad → Fad) (ord : Nat → List Nat) : WorkEv Fad :=
  workEv M (fun k => (P k).lift (pF k)) Fad.fabs ord

theorem lift_ok {M : FeModel} {P : Nat → WorkCrit ℝ} (h : WOk M P) (pF : Nat → Fad → Fad) :
    WOk M fun k => (P k).lift (pF k) :=
  ⟨h.dim, h.d, h.ndof, fun k hk => by
    show ((P k).mat.basis.map Fad.const).length = _
    rw [List.length_map]
    exact h.basis k hk⟩

/-- `J` holds the derivatives of `f` by the unknowns of each cell: the derivative in any direction is the sum over
the cells of the entries times the changes of the unknowns they belong to. -/
def IsCellGradient {m : Nat} (M : FeModel) (f : (Fin m → ℝ) → ℝ) (cols : Nat) (dofOf : Nat → Nat → Nat) (J : V2 ℝ)
    (y : Fin m → ℝ) : Prop :=
  HasFDerivAt f (∑ cell ∈ range M.nc, ∑ l ∈ range cols, J.e cell l • coord m (dofOf cell l)) y

section Mesh
variable {M : FeModel} (hM : M.Ok) (hB : Blocks M) {P : Nat → WorkCrit ℝ} (hJ : WOk M P) {pF : Nat → Fad → Fad}
include hM hB hJ

theorem work_gradient {m : Nat} {y0 : Fin m → ℝ} {a : (Fin m → ℝ) → Args ℝ} (hA : ∀ y, (a y).Ok M (localDofs M.dim))
    {mk : Makers ℝ Fad} {cols : Nat} (hcol : cols ≠ 0) {dofOf : Nat → Nat → Nat}
    (hF : ∀ cell, WFollows M (localDofs M.dim) (fun l => coord m (dofOf cell l)) cols y0
      (cellData M (localDofs M.dim) mk (a y0) cell) fun y => numbers M (a y) cell)
    (hR : EachCell M fun k cell => Regular (P k) (pF k) (numbers M (a y0) cell))
    {r : (Fin m → ℝ) → Run} (hr : ∀ y, (r y).Ok M) {ord : Nat → List Nat} (ho : OrdOk M ord)
    {sch : Nat → Nat → List Nat} (hs : LSched M sch) {o : List Nat} (hoo : IsSchedule o M.nc) (mult : ℝ) :
    ∃ (f : (Fin m → ℝ) → ℝ) (J : V2 ℝ), (∀ y, workValue M P mult (r y) (a y) = .ok (f y)) ∧
      basicGradient M (localDofs M.dim) cols cols mk (workF M P pF ord) mult sch o (a y0) = .ok J ∧
      (J.d0 = M.nc ∧ J.d1 = cols) ∧ IsCellGradient M f cols dofOf J y0 := by
  obtain ⟨J, hJ1, hJ0, hJ2, hJ3⟩ := basicGradient_ok hM hB hs hcol (mk := mk)
    (workEv_cellWise (lift_ok hJ pF) ho Fad.fabs) (hA y0) hoo mult
  refine ⟨_, J, fun y => workValue_ok hM hJ (hA y) (hr y) mult, hJ1, hJ0, ?_⟩
  unfold IsCellGradient
  rw [← sum_cells hM hB]
  · unfold cellSum
    have : HasFDerivAt (fun y => ∑ k ∈ range M.domains.length, ∑ c ∈ range (dom M k).length,
        (P k).work (fun a => |a|) (numbers M (a y) (atN (dom M k) c)))
        (∑ k ∈ range M.domains.length, ∑ c ∈ range (dom M k).length, ∑ l ∈ range cols,
          (((P k).lift (pF k)).work Fad.fabs (cellData M (localDofs M.dim) mk (a y0) (atN (dom M k) c))).dx l •
            coord m (dofOf (atN (dom M k) c) l)) y0 :=
      HasFDerivAt.fun_sum fun k hk => HasFDerivAt.fun_sum fun c hc =>
        (work_tracks hJ.dim (hJ.d k (mem_range.1 hk)) (hJ.ndof k (mem_range.1 hk)) (hF _)
          (hR k (mem_range.1 hk) _ (atN_mem (mem_range.1 hc)))).deriv
    refine (this.const_mul mult).congr_fderiv ?_
    rw [smul_sum]
    refine sum_congr rfl fun k hk => ?_
    rw [smul_sum]
    refine sum_congr rfl fun c hc => ?_
    rw [smul_sum]
    refine sum_congr rfl fun l hl => ?_
    rw [hJ2 k (mem_range.1 hk) _ (atN_mem (mem_range.1 hc)) l (mem_range.1 hl), smul_smul]
  · intro cell hcell hn
    exact sum_eq_zero fun l hl => by rw [hJ3 cell hcell hn l (mem_range.1 hl), zero_smul]

variable {A : Args ℝ} (hA : A.Ok M (localDofs M.dim)) {ord : Nat → List Nat} (ho : OrdOk M ord)
  {sch : Nat → Nat → List Nat} (hs : LSched M sch) {o : List Nat} (hoo : IsSchedule o M.nc) (mult : ℝ)
include hA ho hs hoo

/-- **C78**, derivative by the global state. -/
theorem C78_gradient_u {u : Fin (M.nn * M.ndof) → ℝ}
    (hR : EachCell M fun k cell => Regular (P k) (pF k) (numbers M A cell)) {r : (Fin (M.nn * M.ndof) → ℝ) → Run}
    (hr : ∀ y, (r y).Ok M) :
    ∃ (f : (Fin (M.nn * M.ndof) → ℝ) → ℝ) (J : V2 ℝ),
      (∀ y, workValue M P mult (r y) { A with u := List.ofFn y } = .ok (f y)) ∧
      gradientU M (localDofs M.dim) (workF M P pF ord) mult sch o { A with u := List.ofFn u } = .ok J ∧
      (J.d0 = M.nc ∧ J.d1 = M.npc * M.ndof) ∧
      IsCellGradient M f (M.npc * M.ndof) (cellDof M.npc M.ndof M.c2n) J u :=
  work_gradient hM hB hJ (mk := ⟨seedOf, constOf, constOf, constOf, constOf, constOf⟩)
    (a := fun y => { A with u := List.ofFn y })
    (fun y => ⟨List.length_ofFn, hA.up, hA.c, hA.cp, hA.z, hA.x⟩) (Nat.mul_ne_zero (Nat.succ_ne_zero _) hM.ndof.ne')
    (fun cell => ⟨⟨fun l hl => by
        simp only [cellData, numbers, plainMk, plainOf, seedOf, at0_ofFn]
        exact Tracks.seed (L := fun l => coord _ (cellDof M.npc M.ndof M.c2n cell l)) hl,
      fun _ _ => Tracks.const _, fun _ _ => Tracks.const _, fun _ _ => Tracks.const _, fun _ _ _ _ => Tracks.const _⟩,
      fun _ _ => Tracks.const _⟩)
    (fun k hk cell hc => ⟨(hR k hk cell hc).det, (hR k hk cell hc).pen⟩) hr ho hs hoo mult

/-- **C78**, derivative by the previous global state. -/
theorem C78_gradient_up {u : Fin (M.nn * M.ndof) → ℝ}
    (hR : EachCell M fun k cell => Regular (P k) (pF k) (numbers M A cell)) {r : (Fin (M.nn * M.ndof) → ℝ) → Run}
    (hr : ∀ y, (r y).Ok M) :
    ∃ (f : (Fin (M.nn * M.ndof) → ℝ) → ℝ) (J : V2 ℝ),
      (∀ y, workValue M P mult (r y) { A with up := List.ofFn y } = .ok (f y)) ∧
      gradientUp M (localDofs M.dim) (workF M P pF ord) mult sch o { A with up := List.ofFn u } = .ok J ∧
      (J.d0 = M.nc ∧ J.d1 = M.npc * M.ndof) ∧
      IsCellGradient M f (M.npc * M.ndof) (cellDof M.npc M.ndof M.c2n) J u :=
  work_gradient hM hB hJ (mk := ⟨constOf, seedOf, constOf, constOf, constOf, constOf⟩)
    (a := fun y => { A with up := List.ofFn y })
    (fun y => ⟨hA.u, List.length_ofFn, hA.c, hA.cp, hA.z, hA.x⟩) (Nat.mul_ne_zero (Nat.succ_ne_zero _) hM.ndof.ne')
    (fun cell => ⟨⟨fun _ _ => Tracks.const _, fun _ _ => Tracks.const _, fun _ _ => Tracks.const _,
      fun _ _ => Tracks.const _, fun _ _ _ _ => Tracks.const _⟩, fun l hl => by
        simp only [cellData, numbers, plainMk, plainOf, seedOf, at0_ofFn]
        exact Tracks.seed (L := fun l => coord _ (cellDof M.npc M.ndof M.c2n cell l)) hl⟩)
    (fun k hk cell hc => ⟨(hR k hk cell hc).det, (hR k hk cell hc).pen⟩) hr ho hs hoo mult

/-- **C78**, derivative by the local state. -/
theorem C78_gradient_c {c : Fin (M.nc * localDofs M.dim) → ℝ}
    (hR : EachCell M fun k cell => Regular (P k) (pF k) (numbers M A cell)) {r : (Fin (M.nc * localDofs M.dim) → ℝ) → Run}
    (hr : ∀ y, (r y).Ok M) :
    ∃ (f : (Fin (M.nc * localDofs M.dim) → ℝ) → ℝ) (J : V2 ℝ),
      (∀ y, workValue M P mult (r y) { A with c := List.ofFn y } = .ok (f y)) ∧
      gradientC M (localDofs M.dim) (workF M P pF ord) mult sch o { A with c := List.ofFn c } = .ok J ∧
      (J.d0 = M.nc ∧ J.d1 = localDofs M.dim) ∧
      IsCellGradient M f (localDofs M.dim) (fun cell l => cell * localDofs M.dim + l) J c :=
  work_gradient hM hB hJ (mk := ⟨constOf, constOf, seedOf, constOf, constOf, constOf⟩)
    (a := fun y => { A with c := List.ofFn y })
    (fun y => ⟨hA.u, hA.up, List.length_ofFn, hA.cp, hA.z, hA.x⟩) localDofs_pos
    (fun cell => ⟨⟨fun _ _ => Tracks.const _, fun l hl => by
        simp only [cellData, numbers, plainMk, plainOf, seedOf, at0_ofFn]
        exact Tracks.seed (L := fun l => coord _ (cell * localDofs M.dim + l)) hl,
      fun _ _ => Tracks.const _, fun _ _ => Tracks.const _, fun _ _ _ _ => Tracks.const _⟩, fun _ _ => Tracks.const _⟩)
    (fun k hk cell hc => ⟨(hR k hk cell hc).det, (hR k hk cell hc).pen⟩) hr ho hs hoo mult

/-- **C78**, derivative by the previous local state. -/
theorem C78_gradient_cp {c : Fin (M.nc * localDofs M.dim) → ℝ}
    (hR : EachCell M fun k cell => Regular (P k) (pF k) (numbers M A cell)) {r : (Fin (M.nc * localDofs M.dim) → ℝ) → Run}
    (hr : ∀ y, (r y).Ok M) :
    ∃ (f : (Fin (M.nc * localDofs M.dim) → ℝ) → ℝ) (J : V2 ℝ),
      (∀ y, workValue M P mult (r y) { A with cp := List.ofFn y } = .ok (f y)) ∧
      gradientCp M (localDofs M.dim) (workF M P pF ord) mult sch o { A with cp := List.ofFn c } = .ok J ∧
      (J.d0 = M.nc ∧ J.d1 = localDofs M.dim) ∧
      IsCellGradient M f (localDofs M.dim) (fun cell l => cell * localDofs M.dim + l) J c :=
  work_gradient hM hB hJ (mk := ⟨constOf, constOf, constOf, seedOf, constOf, constOf⟩)
    (a := fun y => { A with cp := List.ofFn y })
    (fun y => ⟨hA.u, hA.up, hA.c, List.length_ofFn, hA.z, hA.x⟩) localDofs_pos
    (fun cell => ⟨⟨fun _ _ => Tracks.const _, fun _ _ => Tracks.const _, fun l hl => by
        simp only [cellData, numbers, plainMk, plainOf, seedOf, at0_ofFn]
        exact Tracks.seed (L := fun l => coord _ (cell * localDofs M.dim + l)) hl,
      fun _ _ => Tracks.const _, fun _ _ _ _ => Tracks.const _⟩, fun _ _ => Tracks.const _⟩)
    (fun k hk cell hc => ⟨(hR k hk cell hc).det, (hR k hk cell hc).pen⟩) hr ho hs hoo mult

/-- **C78**, derivative by the control. -/
theorem C78_gradient_z {z : Fin M.nn → ℝ}
    (hR : EachCell M fun k cell => Regular (P k) (pF k) (numbers M { A with z := List.ofFn z } cell))
    {r : (Fin M.nn → ℝ) → Run} (hr : ∀ y, (r y).Ok M) :
    ∃ (f : (Fin M.nn → ℝ) → ℝ) (J : V2 ℝ),
      (∀ y, workValue M P mult (r y) { A with z := List.ofFn y } = .ok (f y)) ∧
      gradientZ M (localDofs M.dim) (workF M P pF ord) mult sch o { A with z := List.ofFn z } = .ok J ∧
      (J.d0 = M.nc ∧ J.d1 = M.npc) ∧
      IsCellGradient M f M.npc (cellNode M.npc M.c2n) J z :=
  work_gradient hM hB hJ (mk := ⟨constOf, constOf, constOf, constOf, seedOf, constOf⟩)
    (a := fun y => { A with z := List.ofFn y })
    (fun y => ⟨hA.u, hA.up, hA.c, hA.cp, List.length_ofFn, hA.x⟩) (Nat.succ_ne_zero _)
    (fun cell => ⟨⟨fun _ _ => Tracks.const _, fun _ _ => Tracks.const _, fun _ _ => Tracks.const _, fun l hl => by
        simp only [cellData, numbers, plainMk, plainOf, seedOf, at0_ofFn]
        exact Tracks.seed (L := fun l => coord _ (cellNode M.npc M.c2n cell l)) hl,
      fun _ _ _ _ => Tracks.const _⟩, fun _ _ => Tracks.const _⟩) hR hr ho hs hoo mult

end Mesh

/-! ## Weighted sums -/

section Weighted
variable {fs : List (Args ℝ → Res ℝ)} {ws : List ℝ} {A : Args ℝ}

/-- **C78, weighted value**: the sum of the weighted values. -/
theorem C78_weighted (hne : fs ≠ []) (hl : fs.length = ws.length) {v : Nat → ℝ}
    (hv : ∀ i (hi : i < fs.length), fs[i] A = .ok (v i)) :
    weightedValue fs ws A = .ok (∑ i ∈ range fs.length, at0 ws i * v i) := by
  unfold weightedValue
  rw [if_neg (by simpa using hne), if_neg (by simpa using hl)]
  refine forRange_eq (fun j => ∑ i ∈ range j, at0 ws i * v i) fun j hj => ?_
  have e : rd fs j = .ok fs[j] := by simp [rd, hj]
  rw [rd_at0 (by omega), Res.ok_bind, e, Res.ok_bind, hv j hj, Res.ok_bind, Res.pure_eq, sum_range_succ]

/-- **C78, misuse**: without functions, or with another number of weights, the value is an error. -/
theorem C78_weighted_error (h : fs = [] ∨ fs.length ≠ ws.length) : ∃ msg, weightedValue fs ws A = .err msg := by
  unfold weightedValue
  by_cases h0 : fs.length = 0
  · rw [if_pos h0]; exact ⟨_, rfl⟩
  · rw [if_neg h0, if_pos]
    · exact ⟨_, rfl⟩
    · rcases h with h | h
      · exact absurd (by rw [h]; rfl) h0
      · exact h

/-- **C78, weighted gradients**: the sum of the weighted gradients. -/
theorem C78_weighted_gradient {n width : Nat} {gs : List (Args ℝ → Res (V2 ℝ))} (hl : gs.length = ws.length) {g : Nat → V2 ℝ}
    (hg : ∀ i (hi : i < gs.length), gs[i] A = .ok (g i) ∧ (g i).d0 = n ∧ (g i).d1 = width)
    {sch : Nat → List Nat} (hs : ∀ i, i < gs.length → IsSchedule (sch i) n) :
    (weightedGradient n width gs ws sch A).Sat fun J => (J.d0 = n ∧ J.d1 = width) ∧
      ∀ r c, r < n → c < width → J.e r c = ∑ i ∈ range gs.length, at0 ws i * (g i).e r c := by
  unfold weightedGradient
  refine forRange_inv (fun j (J : V2 ℝ) => (J.d0 = n ∧ J.d1 = width) ∧
      ∀ r c, r < n → c < width → J.e r c = ∑ i ∈ range j, at0 ws i * (g i).e r c) (Nat.zero_le _)
    ⟨⟨rfl, rfl⟩, fun _ _ _ _ => rfl⟩ ?_
  rintro j J _ hj ⟨⟨j0, j1⟩, hJ⟩
  have e : rd gs j = .ok gs[j] := by simp [rd, hj]
  obtain ⟨g1, g2, g3⟩ := hg j hj
  rw [rd_at0 (by omega), Res.ok_bind, e, Res.ok_bind, g1, Res.ok_bind, blas2.C41_update2 (by rw [g2]; exact hs j hj),
    if_neg (by omega), if_neg (by omega), Res.sat_ok]
  refine ⟨⟨j0, j1⟩, fun r c hr hc => ?_⟩
  dsimp only
  rw [if_pos ⟨by omega, by omega⟩, hJ r c hr hc, sum_range_succ]
  ring

end Weighted

/-! ## The partial derivative of a problem by the control -/

section Problem
variable {M : FeModel} (hM : M.Ok) (hB : Blocks M) {P : Nat → WorkCrit ℝ} (hJ : WOk M P) {pF : Nat → Fad → Fad}
  {steps : Nat} {us cs : List (List ℝ)} {z : Fin M.nn → ℝ} {x : List ℝ}
  (h : Steps M (localDofs M.dim) steps us cs (List.ofFn z) x)
include hM hB hJ h

/-- **C78, partial derivative by the control**: for fixed states of all steps the problem adds to a vector the
derivatives of the value of the criterion by the control of each node. -/
theorem C78_partial_z
    (hR : EachCell M fun k cell => Regular (P k) (pF k) (numbers M (after M (localDofs M.dim) us cs (List.ofFn z) x 0) cell))
    {rs : (Fin M.nn → ℝ) → Nat → Run} (hrs : ∀ y k, k < steps → (rs y k).Ok M) {ord : Nat → Nat → List Nat}
    (ho : ∀ k, k < steps → OrdOk M (ord k)) {sch : Nat → Nat → Nat → List Nat} (hs : ∀ k, k < steps → LSched M (sch k))
    {o oa : Nat → List Nat} (hoo : ∀ k, k < steps → IsSchedule (o k) M.nc)
    (hoa : ∀ k, k < steps → IsSchedule (oa k) (M.nc * M.npc)) (mult : ℝ) {g0 : List ℝ} (hg0 : g0.length = M.nn) :
    ∃ (f : (Fin M.nn → ℝ) → ℝ) (g : List ℝ),
      (∀ y, problemValue M P mult (rs y) steps us cs (List.ofFn y) x = .ok (f y)) ∧
      addPartial M (localDofs M.dim) 1 steps (fun k => gradientZ M (localDofs M.dim) (workF M P pF (ord k)) mult (sch k) (o k))
        oa us cs (List.ofFn z) x g0 = .ok g ∧ g.length = M.nn ∧
      HasFDerivAt f (∑ q ∈ range M.nn, (at0 g q - at0 g0 q) • coord M.nn q) z := by
  have hst : ∀ y : Fin M.nn → ℝ, Steps M (localDofs M.dim) steps us cs (List.ofFn y) x := fun y =>
    ⟨h.lu, h.lc, h.u, h.c, List.length_ofFn, h.x⟩
  have hz : ∀ (y : Fin M.nn → ℝ) k, after M (localDofs M.dim) us cs (List.ofFn y) x k =
      { after M (localDofs M.dim) us cs (List.ofFn z) x k with z := List.ofFn y } := by
    intro y k
    cases k <;> rfl
  have key : ∀ k, k < steps → ∃ (f : (Fin M.nn → ℝ) → ℝ) (J : V2 ℝ),
      (∀ y, workValue M P mult (rs y k) (after M (localDofs M.dim) us cs (List.ofFn y) x (k + 1)) = .ok (f y)) ∧
      gradientZ M (localDofs M.dim) (workF M P pF (ord k)) mult (sch k) (o k)
        (after M (localDofs M.dim) us cs (List.ofFn z) x (k + 1)) = .ok J ∧
      (J.d0 = M.nc ∧ J.d1 = M.npc) ∧ IsCellGradient M f M.npc (cellNode M.npc M.c2n) J z := by
    intro k hk
    obtain ⟨f, J, h1, h2⟩ := C78_gradient_z hM hB hJ (after_ok h (k := k + 1) hk) (ho k hk) (hs k hk) (hoo k hk) mult
      (z := z) (pF := pF) (fun j hj cell hc => ⟨(hR j hj cell hc).det, (hR j hj cell hc).pen⟩) (r := fun y => rs y k)
      fun y => hrs y k hk
    exact ⟨f, J, fun y => by rw [hz]; exact h1 y, h2⟩
  haveI : Nonempty (V2 ℝ) := ⟨⟨0, 0, fun _ _ => 0⟩⟩
  choose! f J h1 h2 h3 h4 using key
  have hval : ∀ y, problemValue M P mult (rs y) steps us cs (List.ofFn y) x = .ok (∑ k ∈ range steps, f k y) := fun y =>
    evaluateCriterion_ok (hst y) fun k hk => h1 k hk y
  have hadd : (addPartial M (localDofs M.dim) 1 steps (fun k => gradientZ M (localDofs M.dim) (workF M P pF (ord k)) mult
      (sch k) (o k)) oa us cs (List.ofFn z) x g0).Sat fun g => g.length = M.nn ∧ ∀ q, at0 g q = at0 g0 q +
        ∑ k ∈ range steps, scatteredVec M.npc 1 M.c2n none M.nc (J k).e q := by
    unfold addPartial
    refine forRange_inv (fun j (g : List ℝ) => g.length = M.nn ∧ ∀ q, at0 g q = at0 g0 q +
        ∑ k ∈ range j, scatteredVec M.npc 1 M.c2n none M.nc (J k).e q) (Nat.zero_le _) ⟨hg0, fun q => by simp⟩ ?_
    rintro k g _ hk ⟨g1, g2⟩
    rw [stepArgs_ok h hk, Res.ok_bind]
    dsimp only
    rw [h2 k hk, Res.ok_bind]
    refine (C08_assembleResidual hM.mesh ⟨fun c hc => hc, fun l hl => by cases hl⟩ (by rw [g1, Nat.mul_one])
      (le_of_eq (h3 k hk).1.symm) (le_of_eq (by rw [Nat.mul_one]; exact (h3 k hk).2.symm))
      (by rw [Nat.mul_one]; exact hoa k hk)).mono ?_
    rintro g' ⟨l1, l2⟩
    refine ⟨by rw [l1, Nat.mul_one], fun q => ?_⟩
    rw [l2 q, g2 q, sum_range_succ, add_assoc]
  obtain ⟨g, e, g1, g2⟩ := hadd
  refine ⟨fun y => ∑ k ∈ range steps, f k y, g, hval, e, g1, ?_⟩
  refine (HasFDerivAt.fun_sum fun k hk => (h4 k (mem_range.1 hk) : HasFDerivAt _ _ _)).congr_fderiv ?_
  have e1 : ∀ q, at0 g q - at0 g0 q = ∑ k ∈ range steps, scatteredVec M.npc 1 M.c2n none M.nc (J k).e q := fun q => by
    rw [g2 q]; ring
  simp only [e1, sum_smul]
  conv_rhs => rw [sum_comm]
  refine sum_congr rfl fun k _ => ?_
  unfold scatteredVec
  simp only [sum_smul]
  conv_rhs => rw [sum_comm]
  refine sum_congr rfl fun cell hc => ?_
  conv_rhs => rw [sum_comm, Nat.mul_one]
  refine sum_congr rfl fun l hl => ?_
  have hq : cellDof M.npc 1 M.c2n (gcell none cell) l = cellNode M.npc M.c2n cell l := by
    unfold cellDof gcell
    rw [Nat.div_one, Nat.mod_one, Nat.one_mul, Nat.add_zero]
  have hlt : cellNode M.npc M.c2n cell l < M.nn := hM.mesh.node_lt (mem_range.1 hc) (mem_range.1 hl)
  rw [sum_eq_single (cellNode M.npc M.c2n cell l), hq, if_pos rfl]
  · intro q _ hne
    rw [hq, if_neg (fun e => hne e.symm), zero_smul]
  · intro hn
    exact absurd (mem_range.2 hlt) hn

omit hB in
/-- **C78, derivative by the coordinates**: the problem cannot compute it: it stops with an error at the first step. -/
theorem C78_partial_x_false (hsteps : 0 < steps) {ord : Nat → Nat → List Nat} (ho : ∀ k, OrdOk M (ord k))
    {sch : Nat → Nat → Nat → List Nat} (hs : ∀ k, LSched M (sch k)) (o oa : Nat → List Nat) (mult : ℝ) (g0 : List ℝ) :
    addPartial M (localDofs M.dim) M.dim steps
      (fun k => gradientX M (localDofs M.dim) (workF M P pF (ord k)) mult (sch k) (o k)) oa us cs (List.ofFn z) x g0 =
      throwErr "Input number of degrees of freedom does not match the number of columns in output container." := by
  unfold addPartial
  rw [forRange_succ hsteps, stepArgs_ok h hsteps, Res.ok_bind]
  dsimp only
  have e := C78_gradient_x_false (o := o 0) hM (hs 0) (workEv_cellWise (lift_ok hJ pF) (ho 0) Fad.fabs) hM.dim.ne'
    (after_ok h hsteps) (mult := mult)
  unfold workF
  rw [e]
  rfl

end Problem

end Plato.PWork
