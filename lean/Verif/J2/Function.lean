import Verif.J2.Local

/-!
# C64: the function of local unknowns over the domains of a mesh
-/

namespace Plato.J2
open Finset Plato Plato.Mech

variable {K R : Type}

theorem CellData.Same.trans {M : FeModel} {nl : Nat} {D D' D'' : CellData R} (h : D.Same M nl D')
    (h' : D'.Same M nl D'') : D.Same M nl D'' :=
  ⟨fun l hl => (h.u l hl).trans (h'.u l hl), fun l hl => (h.up l hl).trans (h'.up l hl),
    fun l hl => (h.c l hl).trans (h'.c l hl), fun l hl => (h.cp l hl).trans (h'.cp l hl),
    fun l hl => (h.z l hl).trans (h'.z l hl), fun a k ha hk => (h.x a k ha hk).trans (h'.x a k ha hk)⟩

section Function
variable {M : FeModel} (hM : M.Ok) (hB : Blocks M) {nl : Nat} (hnl : nl ≠ 0) {sch : Nat → Nat → List Nat}
  (hs : LSched M sch)
include hM hB hnl hs

/-- **C64, update**: after the update the local state of a cell of a domain is what the evaluator of that
domain computes from the numbers of that cell; the local state of a cell of no domain stays. -/
theorem C64_update {ev : LocalEv ℝ} {F : Nat → CellData ℝ → Nat → ℝ} (hev : RowWise M nl ev F) {A : Args ℝ}
    (hA : A.Ok M nl) :
    (updateLocal M nl ev sch A).Sat fun c => c.length = M.nc * nl ∧
      (∀ k, k < M.domains.length → ∀ cell ∈ dom M k, ∀ i, i < nl →
        at0 c (cell * nl + i) = F k (cellData M nl plainMk A cell) i) ∧
      ∀ cell, cell < M.nc → (∀ k, k < M.domains.length → cell ∉ dom M k) → ∀ i, i < nl →
        at0 c (cell * nl + i) = at0 A.c (cell * nl + i) := by
  unfold updateLocal
  refine (overCells_store (α := Fin nl → ℝ) hM hB (fun c : List ℝ => c.length = M.nc * nl)
    (fun c cell i => at0 c (cell * nl + i)) (fun k cell i => F k (cellData M nl plainMk A cell) i) hA.c ?_).mono ?_
  · intro k c hk hc hsame
    have hA' : ({ A with c := c } : Args ℝ).Ok M nl := ⟨hA.u, hA.up, hc, hA.cp, hA.z, hA.x⟩
    have hlt : ∀ c ∈ dom M k, c < M.nc := fun c hc => dom_lt hM hk hc
    refine Res.Sat.bind (localWs_ok hM hA' hlt (domOk_of_mem hlt) (fun _ _ => rfl)
      fun j hj => hs k j hk (by omega)) ?_
    rintro w ⟨w1, w2⟩
    refine Res.Sat.bind (hev k w w.locl (fun b => cellData M nl plainMk A (atN (dom M k) b)) hk w1 w1.c0 w1.c1
      fun b hb => (w2 b hb).trans ?_) ?_
    · refine ⟨fun _ _ => rfl, fun _ _ => rfl, fun i hi => ?_, fun _ _ => rfl, fun _ _ => rfl, fun _ _ _ _ => rfl⟩
      exact congrFun (hsame _ (atN_mem hb)) ⟨i, hi⟩
    · rintro r ⟨r0, r1, r2⟩
      refine (flatten_ok (hB.nonempty k hk) hnl (hB.nodup k hk) hlt (hs k 6 hk (by omega)) r0 r1 hc).mono ?_
      rintro o ⟨o0, o1, o2⟩
      refine ⟨o0, fun cell hcell => funext fun i => ?_, fun cell h1 h2 => funext fun i => o2 cell h1 h2 i i.2⟩
      obtain ⟨b, hb, rfl⟩ := mem_atN hcell
      rw [o1 b hb i i.2, r2 b i hb i.2]
  · rintro c ⟨h1, h2, h3⟩
    exact ⟨h1, fun k hk cell hc i hi => congrFun (h2 k hk cell hc) ⟨i, hi⟩,
      fun cell hc hn i hi => congrFun (h3 cell hc hn) ⟨i, hi⟩⟩

/-- **C64, residual by cell**: row `cell` of the result is what the evaluator of the domain of that cell
computes from the numbers of that cell; the row of a cell of no domain is zero. -/
theorem C64_residual {ev : LocalEv ℝ} {F : Nat → CellData ℝ → Nat → ℝ} (hev : RowWise M nl ev F) {A : Args ℝ}
    (hA : A.Ok M nl) :
    (localValueWs M nl ev sch A).Sat fun v => (v.d0 = M.nc ∧ v.d1 = nl) ∧
      (∀ k, k < M.domains.length → ∀ cell ∈ dom M k, ∀ i, i < nl →
        v.e cell i = F k (cellData M nl plainMk A cell) i) ∧
      ∀ cell, cell < M.nc → (∀ k, k < M.domains.length → cell ∉ dom M k) → ∀ i, i < nl → v.e cell i = 0 := by
  unfold localValueWs
  refine (overCells_store (α := Fin nl → ℝ) hM hB (fun v : V2 ℝ => v.d0 = M.nc ∧ v.d1 = nl)
    (fun v cell i => v.e cell i) (fun k cell i => F k (cellData M nl plainMk A cell) i) ⟨rfl, rfl⟩ ?_).mono ?_
  · rintro k v hk ⟨v0, v1⟩ -
    have hlt : ∀ c ∈ dom M k, c < M.nc := fun c hc => dom_lt hM hk hc
    refine Res.Sat.bind (localResults_ok hM hA hev hk (domOk_of_mem hlt) (fun _ _ => rfl)
      fun j hj => hs k j hk (by omega)) ?_
    rintro r ⟨r0, r1, r2⟩
    refine (assembleWorkset_ok (hB.nonempty k hk) hnl (hB.nodup k hk) hlt (hs k 6 hk (by omega)) r0 r1 v0 v1).mono ?_
    rintro o ⟨o0, o1, o2⟩
    refine ⟨o0, fun cell hcell => funext fun i => ?_, fun cell h1 h2 => funext fun i => o2 cell h1 h2 i i.2⟩
    obtain ⟨b, hb, rfl⟩ := mem_atN hcell
    rw [o1 b hb i i.2, r2 b i hb i.2]
  · rintro v ⟨h1, h2, h3⟩
    exact ⟨h1, fun k hk cell hc i hi => congrFun (h2 k hk cell hc) ⟨i, hi⟩,
      fun cell hc hn i hi => congrFun (h3 cell hc hn) ⟨i, hi⟩⟩

/-- **C64, derivatives by the global states and the local states**: the matrix of a cell holds the
derivatives the evaluator of its domain computes from the numbers of that cell. -/
theorem C64_gradient {cols : Nat} (hcol : cols ≠ 0) {mk : Makers ℝ Fad} {ev : LocalEv Fad}
    {F : Nat → CellData Fad → Nat → Fad} (hev : RowWise M nl ev F) {A : Args ℝ} (hA : A.Ok M nl) :
    (localGradient M nl cols mk ev sch A).Sat fun J => (J.d0 = M.nc ∧ J.d1 = nl ∧ J.d2 = cols) ∧
      (∀ k, k < M.domains.length → ∀ cell ∈ dom M k, ∀ i j, i < nl → j < cols →
        J.e cell i j = (F k (cellData M nl mk A cell) i).dx j) ∧
      ∀ cell, cell < M.nc → (∀ k, k < M.domains.length → cell ∉ dom M k) → ∀ i j, i < nl → j < cols →
        J.e cell i j = 0 := by
  unfold localGradient
  refine (overCells_store (α := Fin nl → Fin cols → ℝ) hM hB
    (fun J : V3 ℝ => J.d0 = M.nc ∧ J.d1 = nl ∧ J.d2 = cols)
    (fun J cell i j => J.e cell i j) (fun k cell i j => (F k (cellData M nl mk A cell) i).dx j)
    ⟨rfl, rfl, rfl⟩ ?_).mono ?_
  · rintro k J hk ⟨v0, v1, v2⟩ -
    have hlt : ∀ c ∈ dom M k, c < M.nc := fun c hc => dom_lt hM hk hc
    refine Res.Sat.bind (localResults_ok hM hA hev hk (domOk_of_mem hlt) (fun _ _ => rfl)
      fun j hj => hs k j hk (by omega)) ?_
    rintro r ⟨r0, r1, r2⟩
    refine (toPod_ok (hB.nonempty k hk) hnl hcol (hB.nodup k hk) hlt (hs k 6 hk (by omega)) r0 r1 v0 v1 v2).mono ?_
    rintro o ⟨o0, o1, o2⟩
    refine ⟨o0, fun cell hcell => funext fun i => funext fun j => ?_,
      fun cell h1 h2 => funext fun i => funext fun j => o2 cell h1 h2 i j i.2 j.2⟩
    obtain ⟨b, hb, rfl⟩ := mem_atN hcell
    rw [o1 b hb i j i.2 j.2, r2 b i hb i.2]
  · rintro J ⟨h1, h2, h3⟩
    exact ⟨h1, fun k hk cell hc i j hi hj => congrFun (congrFun (h2 k hk cell hc) ⟨i, hi⟩) ⟨j, hj⟩,
      fun cell hc hn i j hi hj => congrFun (congrFun (h3 cell hc hn) ⟨i, hi⟩) ⟨j, hj⟩⟩

end Function

/-! ## One domain with all cells -/

theorem dom_one {M : FeModel} (h1 : M.domains = [List.range M.nc]) : dom M 0 = List.range M.nc := by
  simp [dom, h1]

theorem gcell_range {n c : Nat} (hc : c < n) : gcell none c = atN (List.range n) c := by
  have : atN (List.range n) c = (List.range n)[c]'(by simpa using hc) := at0_eq _
  rw [this, List.getElem_range]
  rfl

theorem overCells_one {σ : Type} {M : FeModel} {l : List Nat} (h : M.domains = [l])
    (body : List Nat → Nat → σ → Res σ) (s : σ) : overCells M body s = body l 0 s := by
  unfold overCells
  rw [h, show [l].length = 1 from rfl, forRange_succ (by omega)]
  show (body l 0 s >>= fun s' => forRange 1 1 s' _) = _
  simp only [forRange_self]
  rcases body l 0 s with s' | m | _ <;> rfl

theorem overCells_ub {σ : Type} {M : FeModel} (hk : 0 < M.domains.length)
    {body : List Nat → Nat → σ → Res σ} {s : σ} (h : body (dom M 0) 0 s = .ub) : overCells M body s = .ub := by
  unfold overCells
  have e : rd M.domains 0 = .ok (dom M 0) := by
    unfold dom
    rw [List.getElem?_eq_getElem hk]
    simp [rd, hk]
  rw [forRange_succ hk, e, Res.ok_bind, h]
  rfl

theorem range_blocks {M : FeModel} (h0 : M.nc ≠ 0) (h1 : M.domains = [List.range M.nc]) : Blocks M := by
  have hk : ∀ {k}, k < M.domains.length → k = 0 := fun h => by rw [h1] at h; simpa using h
  refine ⟨fun k h => ?_, fun k h => ?_, fun j k hj hk' hne => absurd ((hk hj).trans (hk hk').symm) hne⟩
  · rw [hk h, dom_one h1]; simpa using h0
  · rw [hk h, dom_one h1]; exact List.nodup_range

/-- **C64, derivative by the coordinates, one domain**. -/
theorem C64_gradient_x_one {M : FeModel} (hM : M.Ok) {nl : Nat} (hnl : nl ≠ 0) {sch : Nat → Nat → List Nat}
    (hs : LSched M sch) (h0 : M.nc ≠ 0) (h1 : M.domains = [List.range M.nc]) {ev : LocalEv Fad}
    {F : Nat → CellData Fad → Nat → Fad} (hev : RowWise M nl ev F) {A : Args ℝ} (hA : A.Ok M nl) :
    (localGradientX M nl ev sch A).Sat fun J => (J.d0 = M.nc ∧ J.d1 = nl ∧ J.d2 = M.npc * M.dim) ∧
      ∀ cell i j, cell < M.nc → i < nl → j < M.npc * M.dim → J.e cell i j =
        (F 0 (cellData M nl ⟨constOf, constOf, constOf, constOf, constOf, seedOf⟩ A cell) i).dx j := by
  have hk : 0 < M.domains.length := by simp [h1]
  have hB := range_blocks h0 h1
  have hl : (dom M 0).length = M.nc := by rw [dom_one h1, List.length_range]
  have hlt : ∀ c ∈ dom M 0, c < M.nc := fun c hc => dom_lt hM hk hc
  have hcol : M.npc * M.dim ≠ 0 := Nat.mul_ne_zero (Nat.succ_ne_zero _) hM.dim.ne'
  unfold localGradientX
  rw [overCells_one h1, ← dom_one h1]
  refine Res.Sat.bind (localResults_ok (domU := none) hM hA hev hk ⟨fun c hc => by rw [hl] at hc; exact hc, fun l hl => by cases hl⟩
    (fun c hc => by rw [dom_one h1]; rw [hl] at hc; exact gcell_range hc)
    fun j hj => hs 0 j hk (by omega)) ?_
  rintro r ⟨r0, r1, r2⟩
  refine (toPod_ok (hB.nonempty 0 hk) hnl hcol (hB.nodup 0 hk) hlt (hs 0 6 hk (by omega)) r0 r1 rfl rfl rfl).mono ?_
  rintro o ⟨o0, o1, -⟩
  refine ⟨o0, fun cell i j hc hi hj => ?_⟩
  have hg : atN (dom M 0) cell = cell := by rw [dom_one h1]; exact (gcell_range hc).symm
  have := o1 cell (by omega) i j hi hj
  rw [r2 cell i (by omega) hi, hg] at this
  exact this

/-- **C64, derivative by the control, one domain**. -/
theorem C64_gradient_z_one {M : FeModel} (hM : M.Ok) {nl : Nat} (hnl : nl ≠ 0) {sch : Nat → Nat → List Nat}
    (hs : LSched M sch) (h0 : M.nc ≠ 0) (h1 : M.domains = [List.range M.nc]) {ev : LocalEv Fad}
    {F : Nat → CellData Fad → Nat → Fad} (hev : RowWise M nl ev F) {A : Args ℝ} (hA : A.Ok M nl) :
    (localGradientZ M nl ev sch A).Sat fun J => (J.d0 = M.nc ∧ J.d1 = nl ∧ J.d2 = M.npc) ∧
      ∀ cell i j, cell < M.nc → i < nl → j < M.npc → J.e cell i j =
        (F 0 (cellData M nl ⟨constOf, constOf, constOf, constOf, seedOf, constOf⟩ A cell) i).dx j := by
  have hk : 0 < M.domains.length := by simp [h1]
  have hl : (dom M 0).length = M.nc := by rw [dom_one h1, List.length_range]
  have hlt : ∀ c ∈ dom M 0, c < M.nc := fun c hc => dom_lt hM hk hc
  unfold localGradientZ
  rw [overCells_one h1, ← dom_one h1]
  refine Res.Sat.bind (localResults_ok hM hA hev hk (domOk_of_mem hlt) (fun _ _ => rfl)
    fun j hj => hs 0 j hk (by omega)) ?_
  rintro r ⟨r0, r1, r2⟩
  have h6 := hs 0 6 hk (by omega)
  rw [hl] at h6
  refine (toPodAdd_ok h0 hnl (Nat.succ_ne_zero _) h6 (r0.trans hl) r1 rfl rfl rfl).mono ?_
  rintro o ⟨o0, o1⟩
  refine ⟨o0, fun cell i j hc hi hj => ?_⟩
  have hg : atN (dom M 0) cell = cell := by rw [dom_one h1]; exact (gcell_range hc).symm
  rw [o1 cell i j hc hi hj, r2 cell i (by omega) hi, hg, zero_add]

/-! ## Several domains -/

/-- The list of residuals for any number of domains: the entries of position `c` are those of the c-th cell
of the last domain that has more than `c` cells, wherever that cell is in the mesh. -/
theorem localValue_ok {M : FeModel} (hM : M.Ok) (hB : Blocks M) {nl : Nat} (hnl : nl ≠ 0)
    {sch : Nat → Nat → List Nat} (hs : LSched M sch) {ev : LocalEv ℝ} {F : Nat → CellData ℝ → Nat → ℝ}
    (hev : RowWise M nl ev F) {A : Args ℝ} (hA : A.Ok M nl) :
    (localValue M nl ev sch A).Sat fun v => v.length = M.nc * nl ∧ ∀ c i, c < M.nc → i < nl →
      (∀ k, k < M.domains.length → c < (dom M k).length →
        (∀ k', k < k' → k' < M.domains.length → (dom M k').length ≤ c) →
        at0 v (c * nl + i) = F k (cellData M nl plainMk A (atN (dom M k) c)) i) ∧
      ((∀ k, k < M.domains.length → (dom M k).length ≤ c) → at0 v (c * nl + i) = 0) := by
  have h0 : M.nc ≠ 0 := by
    have hk : 0 < M.domains.length := List.length_pos_of_ne_nil hM.some_domain
    obtain ⟨a, ha⟩ := List.exists_mem_of_ne_nil _ (hB.nonempty 0 hk)
    have := dom_lt hM hk ha
    omega
  unfold localValue overCells
  refine (forRange_inv (fun j v => v.length = M.nc * nl ∧ ∀ c i, c < M.nc → i < nl →
      (∀ k, k < j → k < M.domains.length → c < (dom M k).length →
        (∀ k', k < k' → k' < j → k' < M.domains.length → (dom M k').length ≤ c) →
        at0 v (c * nl + i) = F k (cellData M nl plainMk A (atN (dom M k) c)) i) ∧
      ((∀ k, k < j → k < M.domains.length → (dom M k).length ≤ c) → at0 v (c * nl + i) = 0)) (Nat.zero_le _)
      ⟨by simp, fun c i hc hi => ⟨by intros; omega, fun _ => ?_⟩⟩ ?_).mono ?_
  · simp only [at0, List.getElem?_replicate]
    split_ifs <;> rfl
  · rintro j v - hj ⟨v0, v1⟩
    have e : rd M.domains j = .ok (dom M j) := by
      unfold dom
      rw [List.getElem?_eq_getElem hj]
      simp [rd, hj]
    rw [e, Res.ok_bind]
    have hlt : ∀ c ∈ dom M j, c < M.nc := fun c hc => dom_lt hM hj hc
    have hlen : (dom M j).length ≤ M.nc := by
      have := ((hB.nodup j hj).subperm fun c hc => List.mem_range.2 (hlt c hc)).length_le
      rwa [List.length_range] at this
    have hl : (dom M j).length ≠ 0 := by simpa using hB.nonempty j hj
    refine Res.Sat.bind (localResults_ok hM hA hev hj (domOk_of_mem hlt) (fun _ _ => rfl)
      fun i hi => hs j i hj (by omega)) ?_
    rintro r ⟨r0, r1, r2⟩
    unfold flatten
    rw [if_neg (size_ne hl hnl r0 r1), if_neg (by rw [v0]; exact Nat.mul_ne_zero h0 hnl), if_neg hl]
    have hs6 := hs j 6 hj (by omega)
    have key := parFor_store (α := Fin nl → ℝ) (nc := M.nc) (s := v) (cells := List.range (dom M j).length)
      (order := sch j 6) (body := fun cell out => do
        let gc ← cellOf none cell
        forRange 0 nl out fun i out => do
          let a ← vrd2 r cell i
          wr out (gc * nl + i) a) (by rwa [List.length_range]) List.nodup_range
      (fun c hc => by have := List.mem_range.1 hc; omega) (fun o : List ℝ => o.length = M.nc * nl)
      (fun o cell i => at0 o (cell * nl + i)) (fun c i => r.e c i) v0 (by
        intro c s hc hI
        rw [List.length_range] at hc
        rw [show cellOf none c = Res.ok c from rfl, Res.ok_bind, ← gcell_range hc]
        refine (flatten_step (show c < M.nc by omega) (by omega) r1 hI).mono ?_
        rintro o ⟨o0, o1, o2⟩
        exact ⟨o0, funext fun i => o1 i i.2, fun cell h1 h2 => funext fun i => o2 cell h1 h2 i i.2⟩)
    refine key.mono ?_
    rintro o ⟨o0, o1, o2⟩
    rw [List.length_range] at o1
    refine ⟨o0, fun c i hc hi => ?_⟩
    by_cases hcj : c < (dom M j).length
    · have h1 := congrFun (o1 c hcj) ⟨i, hi⟩
      rw [← gcell_range hcj] at h1
      have h1 : at0 o (c * nl + i) = r.e c i := h1
      refine ⟨fun k hk hk' hck hlast => ?_, fun h => ?_⟩
      · have : k = j := by
          by_contra hne
          have := hlast j (by omega) (by omega) hj
          omega
        subst this
        rw [h1, r2 c i hcj hi]
      · have := h j (by omega) hj
        omega
    · have h1 := congrFun (o2 c hc (by simpa using hcj)) ⟨i, hi⟩
      have h1 : at0 o (c * nl + i) = at0 v (c * nl + i) := h1
      rw [h1]
      refine ⟨fun k hk hk' hck hlast => ?_, fun h => ?_⟩
      · have hkj : k ≠ j := by rintro rfl; exact hcj hck
        exact (v1 c i hc hi).1 k (by omega) hk' hck fun k' a b d => hlast k' a (by omega) d
      · exact (v1 c i hc hi).2 fun k hk hk' => h k (by omega) hk'
  · rintro v ⟨v0, v1⟩
    exact ⟨v0, fun c i hc hi => ⟨fun k hk hck hlast => (v1 c i hc hi).1 k hk hk hck fun k' a b d => hlast k' a d,
      fun h => (v1 c i hc hi).2 fun k hk hk' => h k hk⟩⟩

/-- **C64, list of residuals, one domain**: the entries of a cell are at the place of that cell. -/
theorem C64_value_one {M : FeModel} (hM : M.Ok) {nl : Nat} (hnl : nl ≠ 0)
    {sch : Nat → Nat → List Nat} (hs : LSched M sch) (h0 : M.nc ≠ 0) (h1 : M.domains = [List.range M.nc])
    {ev : LocalEv ℝ} {F : Nat → CellData ℝ → Nat → ℝ} (hev : RowWise M nl ev F) {A : Args ℝ} (hA : A.Ok M nl) :
    (localValue M nl ev sch A).Sat fun v => v.length = M.nc * nl ∧ ∀ cell i, cell < M.nc → i < nl →
      at0 v (cell * nl + i) = F 0 (cellData M nl plainMk A cell) i := by
  refine (localValue_ok hM (range_blocks h0 h1) hnl hs hev hA).mono ?_
  rintro v ⟨v0, v1⟩
  refine ⟨v0, fun cell i hc hi => ?_⟩
  have hg : atN (dom M 0) cell = cell := by rw [dom_one h1]; exact (gcell_range hc).symm
  have := (v1 cell i hc hi).1 0 (by simp [h1]) (by rw [dom_one h1, List.length_range]; exact hc) (by
    intro k' a b
    simp [h1] at b
    omega)
  rwa [hg] at this

/-- Runs that end well keep `P`; they may end in undefined behaviour but not in an error. -/
def Weak {σ : Type} (P : σ → Prop) : Res σ → Prop
  | .ok s => P s
  | .err _ => False
  | .ub => True

theorem Weak.bind {σ τ : Type} {P : σ → Prop} {Q : τ → Prop} {r : Res σ} {f : σ → Res τ} (h : Weak P r)
    (hf : ∀ s, P s → Weak Q (f s)) : Weak Q (r >>= f) := by
  rcases r with s | m | _
  · exact hf s h
  · exact h.elim
  · trivial

theorem Weak.forUp {σ : Type} {P : σ → Prop} {body : Nat → σ → Res σ} (hb : ∀ i s, P s → Weak P (body i s)) :
    ∀ n lo s, P s → Weak P (Plato.forUp body n lo s) := by
  intro n
  induction n with
  | zero => intro lo s h; exact h
  | succ n ih => intro lo s h; exact Weak.bind (hb lo s h) fun s' h' => ih _ s' h'

theorem Weak.forRange {σ : Type} {P : σ → Prop} {body : Nat → σ → Res σ} (hb : ∀ i s, P s → Weak P (body i s))
    {lo hi : Nat} {s : σ} (h : P s) : Weak P (Plato.forRange lo hi s body) := Weak.forUp hb _ _ s h

theorem Weak.rd {α : Type} {v : List α} {i : Nat} : Weak (fun _ => True) (Plato.rd v i) := by
  unfold Plato.rd
  split <;> trivial

theorem Weak.vrd2 {v : V2 K} {i j : Nat} : Weak (fun _ => True) (Plato.vrd2 v i j) := by
  unfold Plato.vrd2
  split <;> trivial

theorem Weak.vrd3 {v : V3 K} {i j k : Nat} : Weak (fun _ => True) (Plato.vrd3 v i j k) := by
  unfold Plato.vrd3
  split <;> trivial

theorem parFor_weak_ub {σ : Type} {P : σ → Prop} {body : Nat → σ → Res σ} (hb : ∀ i s, P s → Weak P (body i s)) :
    ∀ (order : List Nat) (s : σ), P s → (∃ i ∈ order, ∀ s, P s → body i s = Res.ub) → parFor order s body = Res.ub := by
  intro order
  induction order with
  | nil => rintro s - ⟨i, hi, -⟩; cases hi
  | cons i is ih =>
    rintro s hP ⟨j, hj, hub⟩
    rw [parFor]
    have := hb i s hP
    rcases hbi : body i s with s' | m | _
    · rw [hbi] at this
      rcases List.mem_cons.1 hj with rfl | hj
      · rw [hub s hP] at hbi
        cases hbi
      · exact ih s' this ⟨j, hj, hub⟩
    · rw [hbi] at this
      exact this.elim
    · rfl

/-- **Refutation of the derivative by the coordinates**: when the first domain has fewer cells than the mesh,
the workset of the global state is written beyond its extent. -/
theorem C64_gradient_x_false {M : FeModel} (hM : M.Ok) {nl : Nat} {sch : Nat → Nat → List Nat}
    (hc : (dom M 0).length < M.nc) (h0 : IsSchedule (sch 0 0) (dom M 0).length)
    (h1 : IsSchedule (sch 0 1) M.nc) (ev : LocalEv Fad) {A : Args ℝ} (hA : A.Ok M nl) :
    localGradientX M nl ev sch A = .ub := by
  have hk : 0 < M.domains.length := List.length_pos_of_ne_nil hM.some_domain
  have hlt : ∀ c ∈ dom M 0, c < M.nc := fun c hc => dom_lt hM hk hc
  unfold localGradientX
  refine overCells_ub hk ?_
  unfold localResults localWs
  dsimp only
  obtain ⟨x, ex, -⟩ := worksetConfig_ok (mk := seedOf) (ws := ⟨(dom M 0).length, M.npc, M.dim, fun _ _ _ => 0⟩)
    hM.mesh (domOk_of_mem hlt) hA.x rfl rfl rfl h0
  rw [ex, Res.ok_bind]
  have eu : workset (constOf : Nat → ℝ → Fad) M.npc M.ndof M.c2n none A.u (sch 0 1)
      ⟨(dom M 0).length, M.npc * M.ndof, fun _ _ => 0⟩ = .ub := by
    unfold workset
    refine parFor_weak_ub (P := fun w : V2 Fad => w.d0 = (dom M 0).length) ?_ _ _ rfl
      ⟨(dom M 0).length, h1.mem_iff.2 (List.mem_range.2 hc), ?_⟩
    · intro c w hw
      show Weak _ (Plato.forRange 0 M.ndof w _)
      refine Weak.forRange (fun dof w hw => Weak.forRange (fun node w hw => ?_) hw) hw
      unfold vectorEntryOrdinal
      refine Weak.bind (P := fun _ => True) (Weak.bind Weak.rd fun _ _ => trivial) fun p _ => Weak.bind Weak.rd fun a _ => ?_
      unfold vwr2
      split
      · exact hw
      · trivial
    · intro w hw
      show Plato.forRange 0 M.ndof w _ = _
      rw [forRange_succ hM.ndof, forRange_succ (show 0 < M.npc from Nat.succ_pos _)]
      unfold vectorEntryOrdinal
      rw [rd_atN (hM.mesh.idx hc (Nat.succ_pos _))]
      simp only [Res.ok_bind, Res.pure_eq]
      have hp : atN M.c2n ((dom M 0).length * M.npc + 0) * M.ndof + 0 < A.u.length := by
        rw [hA.u, Nat.mul_comm _ M.ndof]
        rw [Nat.mul_comm M.nn]
        rw [Nat.mul_comm M.ndof M.nn]
        exact block_lt hM.ndof (hM.mesh.node_lt hc (Nat.succ_pos _))
      rw [rd_at0 hp]
      simp only [Res.ok_bind]
      unfold vwr2
      rw [if_neg (by omega)]
      rfl
  rw [eu]
  rfl

/-- **Refutation of the derivative by the control**: when the first domain has fewer cells than the mesh, the
results are read beyond their extent. -/
theorem C64_gradient_z_false {M : FeModel} (hM : M.Ok) (hB : Blocks M) {nl : Nat} (hnl : nl ≠ 0)
    {sch : Nat → Nat → List Nat} (hc : (dom M 0).length < M.nc)
    (h0 : ∀ j, j < 6 → IsSchedule (sch 0 j) (dom M 0).length)
    (h1 : IsSchedule (sch 0 6) M.nc) {ev : LocalEv Fad} {F : Nat → CellData Fad → Nat → Fad}
    (hev : RowWise M nl ev F) {A : Args ℝ} (hA : A.Ok M nl) :
    localGradientZ M nl ev sch A = .ub := by
  have hk : 0 < M.domains.length := List.length_pos_of_ne_nil hM.some_domain
  have hlt : ∀ c ∈ dom M 0, c < M.nc := fun c hc => dom_lt hM hk hc
  have hl : (dom M 0).length ≠ 0 := by simpa using hB.nonempty 0 hk
  unfold localGradientZ
  refine overCells_ub hk ?_
  obtain ⟨r, er, r0, r1, -⟩ := localResults_ok (mk := ⟨constOf, constOf, constOf, constOf, seedOf, constOf⟩) hM hA
    hev hk (domOk_of_mem hlt) (fun _ _ => rfl) h0
  rw [er, Res.ok_bind]
  have eu : toPodAdd nl M.npc M.nc r (sch 0 6) ⟨M.nc, nl, M.npc, fun _ _ _ => 0⟩ = .ub := by
    unfold toPodAdd
    rw [if_neg (size_ne hl hnl r0 r1), if_neg (show ¬ M.nc = 0 by omega), if_neg (by
      exact Nat.mul_ne_zero (Nat.mul_ne_zero (show M.nc ≠ 0 by omega) hnl) (Nat.succ_ne_zero _))]
    refine parFor_weak_ub (P := fun _ => True) ?_ _ _ trivial
      ⟨(dom M 0).length, h1.mem_iff.2 (List.mem_range.2 hc), ?_⟩
    · intro c w _
      refine Weak.forRange (fun i w _ => Weak.forRange (fun j w _ => ?_) trivial) trivial
      refine Weak.bind Weak.vrd2 fun a _ => Weak.bind Weak.vrd3 fun b _ => ?_
      unfold vwr3
      split <;> trivial
    · intro w _
      rw [forRange_succ (Nat.pos_of_ne_zero hnl), forRange_succ (show 0 < M.npc from Nat.succ_pos _)]
      unfold vrd2
      rw [if_neg (by omega)]
      rfl
  rw [eu]

end Plato.J2
