import Verif.PWork.Element
import Verif.Blas.Matrix
import Verif.Crit.Physics

/-!
# The function of a criterion of plasticity
-/

namespace Plato.PWork
open Finset Plato Plato.Mech Plato.J2 Plato.Plast

variable {R : Type}

/-- The evaluator of domain `k` computes, for every previous content of the result, the function `F k` of
the numbers of each cell. -/
def CellWise [Zero R] (M : FeModel) (nl : Nat) (ev : WorkEv R) (F : Nat → CellData R → R) : Prop :=
  ∀ k w out (D : Nat → CellData R), k < M.domains.length → w.Ok M nl (dom M k).length →
    out.length = (dom M k).length → (∀ c, c < (dom M k).length → (w.row c).Same M nl (D c)) →
    (ev k w out).Sat fun r => r.length = (dom M k).length ∧ ∀ c, c < (dom M k).length → at0 r c = F k (D c)

/-- Orders of the reductions of the value. -/
def ChunkOk (M : FeModel) (chunks : Nat → List (List Nat)) : Prop :=
  ∀ k, k < M.domains.length → IsPartition (chunks k) (dom M k).length

section Function
variable {M : FeModel} (hM : M.Ok) (hB : Blocks M) {nl : Nat} {sch : Nat → Nat → List Nat} (hs : LSched M sch)
include hM hs

omit hs in
theorem scalarResults_ok [Zero R] {mk : Makers ℝ R} {A : Args ℝ}
    (hA : A.Ok M nl) {ev : WorkEv R} {F : Nat → CellData R → R} (hev : CellWise M nl ev F) {k : Nat}
    (hk : k < M.domains.length) {sch : Nat → List Nat} (hs : ∀ j, j < 6 → IsSchedule (sch j) (dom M k).length) :
    (scalarResults M nl mk ev (dom M k) k sch A).Sat fun r => r.length = (dom M k).length ∧
      ∀ c, c < (dom M k).length → at0 r c = F k (cellData M nl mk A (atN (dom M k) c)) := by
  unfold scalarResults
  have hlt : ∀ c ∈ dom M k, c < M.nc := fun c hc => dom_lt hM hk hc
  refine Res.Sat.bind (localWs_ok hM hA hlt (domOk_of_mem hlt) (fun _ _ => rfl) hs) ?_
  rintro w ⟨h1, h2⟩
  exact hev k w _ _ hk h1 List.length_replicate h2

omit hM hs in
theorem rd_dom {k : Nat} (hk : k < M.domains.length) : rd M.domains k = .ok (dom M k) := by
  unfold dom
  rw [List.getElem?_eq_getElem hk]
  simp [rd, hk]

/-- **The value in closed form**, for every order of the loops and of the sums. -/
theorem basicValue_ok {ev : WorkEv ℝ} {F : Nat → CellData ℝ → ℝ} (hev : CellWise M nl ev F) {A : Args ℝ}
    (hA : A.Ok M nl) {chunks : Nat → List (List Nat)} (hch : ChunkOk M chunks) (mult : ℝ) :
    basicValue M nl ev mult sch chunks A = .ok (mult * ∑ k ∈ range M.domains.length,
      ∑ c ∈ range (dom M k).length, F k (cellData M nl plainMk A (atN (dom M k) c))) := by
  unfold basicValue overCells
  have : (forRange 0 M.domains.length (0 : ℝ) fun k s => do
      let cells ← rd M.domains k
      let r ← scalarResults M nl plainMk ev cells k (sch k) A
      let a ← Crit.localResultSum (chunks k) r
      pure (s + a)).Sat fun s => s = ∑ k ∈ range M.domains.length,
        ∑ c ∈ range (dom M k).length, F k (cellData M nl plainMk A (atN (dom M k) c)) := by
    refine forRange_inv (fun j s => s = ∑ k ∈ range j,
        ∑ c ∈ range (dom M k).length, F k (cellData M nl plainMk A (atN (dom M k) c))) (Nat.zero_le _) rfl ?_
    rintro k s - hk rfl
    rw [rd_dom hk, Res.ok_bind]
    refine Res.Sat.bind (scalarResults_ok hM hA hev hk fun j hj => hs k j hk (by omega)) ?_
    rintro r ⟨r0, r1⟩
    unfold Crit.localResultSum
    rw [parReduce_sum (hch k hk) (f := fun c => at0 r c)
        (fun c s hc => by rw [rd_at0 (by rw [r0]; exact hc)]; rfl), Res.ok_bind, Res.pure_eq, Res.sat_ok,
      sum_range_succ, sum_congr rfl fun c hc => r1 c (mem_range.1 hc)]
  obtain ⟨s, e, rfl⟩ := this
  rw [e, Res.ok_bind, Res.pure_eq]

omit hM hs in
theorem toPod2_ok {nc cols : Nat} {cells : List Nat} (hn : cells.Nodup) (hlt : ∀ c ∈ cells, c < nc) {input : List Fad}
    (hi : input.length = cells.length) {order : List Nat} (hs : IsSchedule order cells.length) {out : V2 ℝ}
    (o0 : out.d0 = nc) (o1 : out.d1 = cols) :
    (toPod2 cols cells input order out).Sat fun r => (r.d0 = nc ∧ r.d1 = cols) ∧
      (∀ c, c < cells.length → ∀ j, j < cols → r.e (atN cells c) j = (at0 input c).dx j) ∧
      ∀ cell, cell < nc → cell ∉ cells → ∀ j, j < cols → r.e cell j = out.e cell j := by
  unfold toPod2
  rw [if_neg (by omega), if_neg (by omega)]
  refine (parFor_store (α := Fin cols → ℝ) hs hn hlt (fun r : V2 ℝ => r.d0 = nc ∧ r.d1 = cols)
    (fun r cell j => r.e cell j) (fun c j => (at0 input c).dx j) ⟨o0, o1⟩ ?_).mono ?_
  · rintro c r hc ⟨r0, r1⟩
    have hg : rd cells c = .ok (atN cells c) := by
      unfold atN; rw [rd_at0 hc]
    have hgl : atN cells c < r.d0 := by rw [r0]; exact hlt _ (atN_mem hc)
    rw [hg, Res.ok_bind]
    conv => enter [1]; rw [← V2.row_self r (atN cells c)]
    rw [forRange_row (fun j _ => (at0 input c).dx j), Res.sat_ok]
    · refine ⟨⟨r0, r1⟩, funext fun j => by rw [row_e, if_pos j.2], fun cell h1 h2 => funext fun j => by simp [V2.row, h2]⟩
    · intro j f hj
      rw [rd_at0 (by omega), Res.ok_bind, vwr2_row hgl (by omega)]
  · rintro r ⟨h1, h2, h3⟩
    exact ⟨h1, fun c hc j hj => congrFun (h2 c hc) ⟨j, hj⟩, fun cell h4 h5 j hj => congrFun (h3 cell h4 h5) ⟨j, hj⟩⟩

include hB

/-- **The gradients in closed form.** -/
theorem basicGradient_ok {cols : Nat} (hcol : cols ≠ 0) {mk : Makers ℝ Fad} {ev : WorkEv Fad} {F : Nat → CellData Fad → Fad}
    (hev : CellWise M nl ev F) {A : Args ℝ} (hA : A.Ok M nl) {o : List Nat} (ho : IsSchedule o M.nc) (mult : ℝ) :
    (basicGradient M nl cols cols mk ev mult sch o A).Sat fun J => (J.d0 = M.nc ∧ J.d1 = cols) ∧
      (∀ k, k < M.domains.length → ∀ cell ∈ dom M k, ∀ j, j < cols →
        J.e cell j = mult * (F k (cellData M nl mk A cell)).dx j) ∧
      ∀ cell, cell < M.nc → (∀ k, k < M.domains.length → cell ∉ dom M k) → ∀ j, j < cols → J.e cell j = 0 := by
  unfold basicGradient
  have hnc : M.nc ≠ 0 := by
    intro h0
    have hk : 0 < M.domains.length := Nat.pos_of_ne_zero (by simpa using hM.some_domain)
    obtain ⟨c, hc⟩ := List.exists_mem_of_ne_nil _ (hB.nonempty 0 hk)
    have := dom_lt hM hk hc
    omega
  refine Res.Sat.bind (overCells_store (α := Fin cols → ℝ) hM hB (fun J : V2 ℝ => J.d0 = M.nc ∧ J.d1 = cols)
    (fun J cell j => J.e cell j) (fun k cell j => (F k (cellData M nl mk A cell)).dx j) ⟨rfl, rfl⟩ ?_) ?_
  · rintro k J hk ⟨v0, v1⟩ -
    have hlt : ∀ c ∈ dom M k, c < M.nc := fun c hc => dom_lt hM hk hc
    refine Res.Sat.bind (scalarResults_ok hM hA hev hk fun j hj => hs k j hk (by omega)) ?_
    rintro r ⟨r0, r1⟩
    refine (toPod2_ok (hB.nodup k hk) hlt r0 (hs k 6 hk (by omega)) v0 v1).mono ?_
    rintro o ⟨o0, o1, o2⟩
    refine ⟨o0, fun cell hcell => funext fun j => ?_, fun cell h1 h2 => funext fun j => o2 cell h1 h2 j j.2⟩
    obtain ⟨b, hb, rfl⟩ := mem_atN hcell
    rw [o1 b hb j j.2, r1 b hb]
  · rintro J ⟨⟨j0, j1⟩, h2, h3⟩
    have hsz : J.size ≠ 0 := by
      unfold V2.size
      rw [j0, j1]
      exact Nat.mul_ne_zero hnc hcol
    rw [blas2.C41_scale2 (by rw [j0]; exact ho), if_neg hsz, Res.sat_ok]
    refine ⟨⟨j0, j1⟩, fun k hk cell hc j hj => ?_, fun cell hc hn j hj => ?_⟩
    · dsimp only
      rw [if_pos ⟨by rw [j0]; exact dom_lt hM hk hc, by omega⟩]
      congr 1
      exact congrFun (h2 k hk cell hc) ⟨j, hj⟩
    · dsimp only
      rw [if_pos ⟨by omega, by omega⟩, show J.e cell j = 0 from congrFun (h3 cell hc hn) ⟨j, hj⟩, mul_zero]

omit hB in
/-- **The derivatives by the coordinates cannot be had**: for every criterion, mesh and state that the other
gradients accept, `gradient_x` stops with an error. -/
theorem C78_gradient_x_false {ev : WorkEv Fad} {F : Nat → CellData Fad → Fad} (hev : CellWise M nl ev F) (hdim : M.dim ≠ 0)
    {A : Args ℝ} (hA : A.Ok M nl) (o : List Nat) (mult : ℝ) :
    gradientX M nl ev mult sch o A =
      throwErr "Input number of degrees of freedom does not match the number of columns in output container." := by
  have hk : 0 < M.domains.length := Nat.pos_of_ne_zero (by simpa using hM.some_domain)
  have hne : M.dim ≠ M.npc * M.dim := by
    have : M.npc = M.dim + 1 := rfl
    rw [this, Nat.add_mul, Nat.one_mul]
    have := Nat.mul_pos (Nat.pos_of_ne_zero hdim) (Nat.pos_of_ne_zero hdim)
    omega
  obtain ⟨r, er, r0, -⟩ := scalarResults_ok hM (mk := ⟨constOf, constOf, constOf, constOf, constOf, seedOf⟩) hA hev hk
    fun j hj => hs 0 j hk (by omega)
  unfold gradientX basicGradient overCells
  obtain ⟨n, hn⟩ : ∃ n, M.domains.length = n + 1 := ⟨M.domains.length - 1, by omega⟩
  rw [hn]
  unfold forRange
  rw [Nat.sub_zero, forUp, rd_dom hk, Res.ok_bind]
  dsimp only
  rw [er, Res.ok_bind]
  unfold toPod2
  rw [if_neg (by omega), if_pos hne]
  rfl

end Function

/-! ## The criteria -/

section Ev
variable [CommRing R] [Div R]

/-- The criteria of the domains; `ord k` is the order of the loop over the cells. -/
def workEv (M : FeModel) (P : Nat → WorkCrit R) (fabs : R → R) (ord : Nat → List Nat) : WorkEv R := fun k w out =>
  (P k).evaluate fabs (ord k) (dom M k).length w out

theorem wws_ok {M : FeModel} {P : J2 R} {n : Nat} {w : LocalWs R} (hd : P.d = M.dim) (hn : P.ndof = M.ndof)
    (h : w.Ok M (localDofs M.dim) n) : WWs P n w := by
  refine ⟨⟨h.g0, ?_, h.c0, ?_, h.z0, ?_, h.x0, ?_, ?_⟩, ⟨h.q0, ?_, h.p0, ?_, h.z0, ?_, h.x0, ?_, ?_⟩⟩
  · rw [h.g1, hd, hn]; exact le_rfl
  · rw [h.c1, hd]
  · rw [h.z1, hd]; exact le_rfl
  · rw [h.x1, hd]; rfl
  · rw [h.x2, hd]
  · rw [h.q1, hd, hn]; exact le_rfl
  · rw [h.p1, hd]
  · rw [h.z1, hd]; exact le_rfl
  · rw [h.x1, hd]; rfl
  · rw [h.x2, hd]

/-- The work of a cell needs the numbers of the cell. -/
theorem work_same {M : FeModel} {P : WorkCrit R} (fabs : R → R) (hd : P.mat.d = 2 ∨ P.mat.d = 3) (e : P.mat.d = M.dim)
    (hn : P.mat.ndof = M.ndof) {D D' : CellData R} (h : D.Same M (localDofs M.dim) D') :
    P.work fabs D = P.work fabs D' := by
  have hle := stressTerms_eq hd
  have hu : ∀ l, l < (P.mat.d + 1) * P.mat.ndof → D.u l = D'.u l := fun l hl => h.u l (by rw [e, hn] at hl; exact hl)
  have hup : ∀ l, l < (P.mat.d + 1) * P.mat.ndof → D.up l = D'.up l := fun l hl => h.up l (by rw [e, hn] at hl; exact hl)
  have hc : ∀ i, i < localDofs P.mat.d → D.c i = D'.c i := fun i hi => h.c i (by rwa [← e])
  have hcp : ∀ i, i < localDofs P.mat.d → D.cp i = D'.cp i := fun i hi => h.cp i (by rwa [← e])
  have hz : ∀ a, a < P.mat.d + 1 → D.z a = D'.z a := fun a ha => h.z a (by rw [e] at ha; exact ha)
  have hx : ∀ a i, a < P.mat.d + 1 → i < P.mat.d → D.x a i = D'.x a i :=
    fun a i ha hi => h.x a i (by rw [e] at ha; exact ha) (by rwa [← e])
  have he : ∀ t, t < stressTerms P.mat.d → P.elasticAt D.u D.c D.x t = P.elasticAt D'.u D'.c D'.x t := by
    intro t ht
    unfold WorkCrit.elasticAt J2.elasticOf
    rw [total_congr hd hu hx, therm_congr hu, hc _ (by omega)]
  have hpe : ∀ t, t < stressTerms P.mat.d → P.elasticAt D.up D.cp D.x t = P.elasticAt D'.up D'.cp D'.x t := by
    intro t ht
    unfold WorkCrit.elasticAt J2.elasticOf
    rw [total_congr hd hup hx, therm_congr hup, hcp _ (by omega)]
  unfold WorkCrit.work WorkCrit.volOf WorkCrit.stressOf WorkCrit.penOf
  rw [meanDensity_congr hz, detForm_congr (.inr hd) hx]
  congr 1
  refine sum_congr rfl fun t ht => ?_
  have ht := mem_range.1 ht
  unfold WorkCrit.misfitOf
  rw [cauchyForm_congr hd he ht, cauchyForm_congr hd hpe ht, he t ht, hpe t ht, hc _ (by omega), hcp _ (by omega)]

/-- The criteria of the domains suit the mesh. -/
abbrev WOk (M : FeModel) (P : Nat → WorkCrit R) : Prop := JOk M fun k => (P k).mat

theorem workEv_cellWise {M : FeModel} {P : Nat → WorkCrit R} (hJ : WOk M P) {ord : Nat → List Nat} (ho : OrdOk M ord)
    (fabs : R → R) : CellWise M (localDofs M.dim) (workEv M P fabs ord) fun k D => (P k).work fabs D := by
  intro k w out D hk hw o0 hD
  have e : (P k).mat.d = M.dim := hJ.d k hk
  have hd : (P k).mat.d = 2 ∨ (P k).mat.d = 3 := by rw [e]; exact hJ.dim
  refine (evaluate_ok fabs hd (by rw [hJ.basis k hk, e]) (wws_ok e (hJ.ndof k hk) hw) (ho k hk) o0).mono ?_
  rintro r ⟨r0, r1⟩
  refine ⟨r0, fun c hc => ?_⟩
  rw [r1 c hc]
  exact work_same fabs hd e (hJ.ndof k hk) (hD c hc)

end Ev

end Plato.PWork
