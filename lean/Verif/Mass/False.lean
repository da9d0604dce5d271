import Verif.Mass.Input
import Verif.Simplex.Cubature

/-!
# Extents, densities, and where the moments and the mass properties differ from those of the body (C69, C70)
-/

namespace Plato.Mass
open Plato Plato.Mech Plato.Crit Finset Matrix MeasureTheory

/-! ## Inertia about the centre of gravity -/

/-- What the rotated components are, for any centre of gravity. -/
theorem rotated_value {B : Body} {z x : List ℝ} (h : massOf B z x ≠ 0) (Q : Tensor) (g : Fin 3 → ℝ) :
    Qᵀ * ((inertiaOf B z x - massOf B z x • parallelAxis g) * Q) =
      Qᵀ * ((inertiaAbout B (centreOf B z x) z x + massOf B z x • (parallelAxis (centreOf B z x) - parallelAxis g)) * Q) := by
  rw [parallel_axis h, smul_sub]
  congr 2
  abel

/-- **C70**, in part: the functions of the rotated inertia are the inertia about the centre of gravity in the
principal axes of the gold values, if the centre of gravity is the gold one. -/
theorem C70_about_cg_partial {B : Body} (hB : B.Ok) (h3 : B.M.dim = 3) {o : List Nat → Orders} (ho : ∀ p, (o p).Ok B.M)
    (eig : Tensor → Tensor × (Fin 3 → ℝ)) (g : String → ℝ) {axes : String} {i j : Fin 3} (hp : pairOf axes = some (i, j)) :
    (rotatedFn B (frameOf eig g) axes o).Sat fun f => ∀ z x, z.length = B.M.nn → x.length = B.M.nn * B.M.dim →
      massOf B z x ≠ 0 → centreOf B z x = ![g "CGx", g "CGy", g "CGz"] →
      f.value z x = .ok (((frameOf eig g).Qᵀ * (inertiaAbout B (centreOf B z x) z x * (frameOf eig g).Q)) i j) := by
  refine (rotated_sound hB h3 ho (frameOf_minusP eig g) hp fun _ _ => True).mono fun f hf z x hz hx hm hc => ?_
  rw [hf.value z x hz hx trivial, rotated_value hm, hc, sub_self, smul_zero, add_zero]

theorem trace_parallelAxis (g : Fin 3 → ℝ) : (parallelAxis g).trace = 2 * (g ⬝ᵥ g) := by
  simp only [parallelAxis, Matrix.trace, Matrix.diag, Matrix.sub_apply, Matrix.smul_apply, Matrix.one_apply,
    Matrix.vecMulVec_apply, dotProduct, Fin.sum_univ_three, smul_eq_mul]
  simp
  ring

/-- **C70 is false** for the inertia about the centre of gravity: whenever the centre of gravity is at another
distance from the origin than the gold one, not all of the components can be right. -/
theorem C70_about_cg_false {B : Body} (hB : B.Ok) (h3 : B.M.dim = 3) {o : List Nat → Orders} (ho : ∀ p, (o p).Ok B.M)
    {eig : Tensor → Tensor × (Fin 3 → ℝ)} {g : String → ℝ} (he : EigOk eig (goldAboutCentre g)) {z x : List ℝ}
    (hz : z.length = B.M.nn) (hx : x.length = B.M.nn * B.M.dim) (hm : massOf B z x ≠ 0)
    (hc : centreOf B z x ⬝ᵥ centreOf B z x ≠ ![g "CGx", g "CGy", g "CGz"] ⬝ᵥ ![g "CGx", g "CGy", g "CGz"]) :
    ∃ axes i j, pairOf axes = some (i, j) ∧ (rotatedFn B (frameOf eig g) axes o).Sat fun f =>
      f.value z x ≠ .ok (((frameOf eig g).Qᵀ * (inertiaAbout B (centreOf B z x) z x * (frameOf eig g).Q)) i j) := by
  by_contra hcon
  push Not at hcon
  have key : ∀ axes (i j : Fin 3), pairOf axes = some (i, j) →
      ((frameOf eig g).Qᵀ * (inertiaAbout B (centreOf B z x) z x * (frameOf eig g).Q)) i j =
      ((frameOf eig g).Qᵀ * ((inertiaOf B z x - massOf B z x • parallelAxis ![g "CGx", g "CGy", g "CGz"]) *
        (frameOf eig g).Q)) i j := by
    intro axes i j hp
    by_contra hne
    refine hcon axes i j hp ((rotated_sound hB h3 ho (frameOf_minusP eig g) hp fun _ _ => True).mono fun f hf h => hne ?_)
    rw [hf.value z x hz hx trivial] at h
    exact (Res.ok.inj h).symm
  have t : ((frameOf eig g).Qᵀ * (inertiaAbout B (centreOf B z x) z x * (frameOf eig g).Q)).trace =
      ((frameOf eig g).Qᵀ * ((inertiaOf B z x - massOf B z x • parallelAxis ![g "CGx", g "CGy", g "CGz"]) *
        (frameOf eig g).Q)).trace := by
    unfold Matrix.trace
    rw [Fin.sum_univ_three, Fin.sum_univ_three]
    simp only [Matrix.diag]
    rw [key "XX" 0 0 rfl, key "YY" 1 1 rfl, key "ZZ" 2 2 rfl]
  have h1 : (frameOf eig g).Q * (frameOf eig g).Qᵀ = 1 := mul_eq_one_comm.1 he.1
  have tr : ∀ A : Tensor, ((frameOf eig g).Qᵀ * (A * (frameOf eig g).Q)).trace = A.trace := by
    intro A
    rw [Matrix.trace_mul_comm, Matrix.mul_assoc, h1, Matrix.mul_one]
  rw [tr, tr, parallel_axis hm, Matrix.trace_sub, Matrix.trace_sub, Matrix.trace_smul, Matrix.trace_smul,
    trace_parallelAxis, trace_parallelAxis, smul_eq_mul, smul_eq_mul] at t
  have : massOf B z x * (centreOf B z x ⬝ᵥ centreOf B z x - ![g "CGx", g "CGy", g "CGz"] ⬝ᵥ ![g "CGx", g "CGy", g "CGz"]) = 0 := by
    linarith
  rcases mul_eq_zero.1 this with h | h
  · exact hm h
  · exact hc (by linarith)

/-- **C70**: without mass there is no centre of gravity; the function of a coordinate of it is an error. -/
theorem C70_no_mass {B : Body} (hB : B.Ok) (h3 : B.M.dim = 3) {o : List Nat → Orders} (ho : ∀ p, (o p).Ok B.M)
    {type : String} {i : Fin 3} (ht : axesOf type = some [i.1]) {z x : List ℝ} (hz : z.length = B.M.nn)
    (hx : x.length = B.M.nn * B.M.dim) (hm : massOf B z x = 0) : ∃ m, (ratioFn B type o).value z x = .err m := by
  refine C26_geo_division_rejects (momentFn B type (o [0])) (momentFn B "Mass" (o [1])) (B.M.nn * B.M.dim) B.M.nn
    ((o []).ox 0) z x (v := pointMoment B [i.1] z x) ?_ ?_
  · exact C69_value hB (ho [0]) ht (fun j hj => by rw [List.mem_singleton.1 hj, h3]; exact i.2) hz hx
  · rw [← hm]
    exact C69_value hB (ho [1]) (type := "Mass") rfl (by simp) hz hx

/-! ## Extents of the mesh -/

/-- **C70**: in space, the extents are the largest differences of the coordinates of two vertices. -/
theorem C70_extent {n : Nat} {coords : List ℝ} (hc : coords.length = n * 3) (hn : 0 < n) {order : List Nat}
    (ho : IsSchedule order n) {chunks : List (List Nat)} (hp : IsPartition chunks n) {lowest highest : ℝ}
    (hlo : ∀ i, i < n * 3 → lowest ≤ at0 coords i) (hhi : ∀ i, i < n * 3 → at0 coords i ≤ highest) :
    (meshExtent 3 n coords order chunks lowest highest).Sat fun e => ∀ k : Fin 3,
      (∀ a b, a < n → b < n → |at0 coords (a * 3 + k) - at0 coords (b * 3 + k)| ≤ ![e.1, e.2.1, e.2.2] k) ∧
      ∃ a b, a < n ∧ b < n ∧ ![e.1, e.2.1, e.2.2] k = |at0 coords (a * 3 + k) - at0 coords (b * 3 + k)| := by
  have idx : ∀ i k, i < n → k < 3 → i * 3 + k < coords.length := fun i k hi hk => by omega
  have row : ∀ (k : Nat), k < 3 → ∀ v : List ℝ, v.length = n → (∀ i, i < n → at0 v i = at0 coords (i * 3 + k)) →
      (blas1.min chunks highest v).Sat fun lo => (blas1.max chunks lowest v).Sat fun hi =>
        (∀ a b, a < n → b < n → |at0 coords (a * 3 + k) - at0 coords (b * 3 + k)| ≤ |hi - lo|) ∧
        ∃ a b, a < n ∧ b < n ∧ |hi - lo| = |at0 coords (a * 3 + k) - at0 coords (b * 3 + k)| := by
    intro k hk v hv hval
    refine (blas1.C41_min (hv.symm ▸ hp) (by omega) fun i hi => ?_).mono ?_
    · rw [hval i (by omega)]
      exact hhi _ (by omega)
    rintro lo ⟨l1, b, hb, l2⟩
    refine (blas1.C41_max (hv.symm ▸ hp) (by omega) fun i hi => ?_).mono ?_
    · rw [hval i (by omega)]
      exact hlo _ (by omega)
    rintro hi ⟨h1, a, ha, h2⟩
    refine ⟨fun c d hc hd => ?_, a, b, by omega, by omega, by rw [l2, h2, hval a (by omega), hval b (by omega)]⟩
    have e1 := l1 c (by omega)
    have e2 := l1 d (by omega)
    have e3 := h1 c (by omega)
    have e4 := h1 d (by omega)
    rw [hval c hc] at e1 e3
    rw [hval d hd] at e2 e4
    rw [abs_of_nonneg (by linarith : 0 ≤ hi - lo), abs_le]
    constructor <;> linarith
  unfold meshExtent
  refine (parFor_sched ho (fun D (s : List ℝ × List ℝ × List ℝ) => (s.1.length = n ∧ s.2.1.length = n ∧ s.2.2.length = n) ∧
    ∀ i ∈ D, at0 s.1 i = at0 coords (i * 3 + 0) ∧ at0 s.2.1 i = at0 coords (i * 3 + 1) ∧
      at0 s.2.2 i = at0 coords (i * 3 + 2)) ⟨by simp, by simp⟩ ?_).bind ?_
  · rintro D i ⟨s1, s2, s3⟩ hi hD - ⟨⟨l1, l2, l3⟩, h⟩
    dsimp only at l1 l2 l3 h ⊢
    rw [rd_at0 (idx i 0 hi (by omega)), Res.ok_bind, rd_at0 (idx i 1 hi (by omega)), Res.ok_bind,
      rd_at0 (idx i 2 hi (by omega)), Res.ok_bind, wr_eq (by omega), Res.ok_bind, wr_eq (by omega), Res.ok_bind,
      wr_eq (by omega), Res.ok_bind]
    refine Res.Sat.ok ⟨by simp [l1, l2, l3], fun j hj => ?_⟩
    dsimp only
    rw [at0_set (by omega), at0_set (by omega), at0_set (by omega)]
    by_cases hji : j = i
    · subst hji
      simp
    · rw [if_neg hji, if_neg hji, if_neg hji]
      exact h j ((mem_insert.1 hj).resolve_left hji)
  · rintro ⟨s1, s2, s3⟩ ⟨⟨l1, l2, l3⟩, h⟩
    dsimp only at l1 l2 l3 h ⊢
    refine (row 0 (by omega) s1 l1 fun i hi => (h i (mem_range.2 hi)).1).bind fun xmin hx => ?_
    refine hx.bind fun xmax hx => ?_
    refine (row 1 (by omega) s2 l2 fun i hi => (h i (mem_range.2 hi)).2.1).bind fun ymin hy => ?_
    refine hy.bind fun ymax hy => ?_
    refine (row 2 (by omega) s3 l3 fun i hi => (h i (mem_range.2 hi)).2.2).bind fun zmin hz => ?_
    refine hz.bind fun zmax hz => Res.Sat.ok fun k => ?_
    fin_cases k
    · exact hx
    · exact hy
    · exact hz

theorem rd_cases {α : Type} (l : List α) (i : Nat) : (∃ a, rd l i = .ok a) ∨ rd l i = .ub := by
  unfold rd
  cases l[i]? with
  | some a => exact .inl ⟨a, rfl⟩
  | none => exact .inr rfl

theorem parFor_some_ub {σ : Type} {order : List Nat} {s : σ} {body : Nat → σ → Res σ}
    (hb : ∀ i s, (∃ s', body i s = .ok s') ∨ body i s = .ub) {j : Nat} (hj : j ∈ order) (h : ∀ s, body j s = .ub) :
    parFor order s body = .ub := by
  induction order generalizing s with
  | nil => cases hj
  | cons i l ih =>
    unfold parFor
    rcases hb i s with ⟨s', e⟩ | e
    · rw [e]
      rcases List.mem_cons.1 hj with rfl | hj
      · rw [h] at e; cases e
      · exact ih hj
    · rw [e]
      rfl

/-- **C70 is false** in less than three dimensions: computing the extents reads past the end of the
coordinates, whatever properties are listed. -/
theorem C70_extent_false {d n : Nat} (hd : d = 1 ∨ d = 2) {coords : List ℝ} (hc : coords.length = n * d) (hn : 0 < n)
    {order : List Nat} (ho : IsSchedule order n) (chunks : List (List Nat)) (lowest highest : ℝ) (B : Body)
    (eig : Tensor → Tensor × (Fin 3 → ℝ)) (o : List Nat → Orders) {names : List String} {ws gold : List ℝ}
    (hw : ws.length = names.length) (hg : gold.length = names.length) (hnd : names.Nodup) (hk : ∀ n ∈ names, n ∈ allNames) :
    createLeast B eig o (meshExtent d n coords order chunks lowest highest) ⟨some names, some ws, some gold⟩ = .ub := by
  have e : meshExtent d n coords order chunks lowest highest = .ub := by
    unfold meshExtent
    rw [parFor_some_ub (j := n - 1) ?_ (ho.mem_iff.2 (List.mem_range.2 (by omega))) ?_]
    · rfl
    · intro i s
      rcases rd_cases coords (i * d + 0) with ⟨a, ea⟩ | ea
      · rcases rd_cases coords (i * d + 1) with ⟨b, eb⟩ | eb
        · rcases rd_cases coords (i * d + 2) with ⟨c, ec⟩ | ec
          · rw [ea, eb, ec]
            simp only [Res.ok_bind]
            unfold wr
            split_ifs <;> simp
          · rw [ea, eb, ec]
            exact .inr rfl
        · rw [ea, eb]
          exact .inr rfl
      · rw [ea]
        exact .inr rfl
    · intro s
      have : ¬ (n - 1) * d + 2 < coords.length := by
        rcases hd with rfl | rfl <;> omega
      have ec : rd coords ((n - 1) * d + 2) = .ub := by
        unfold rd
        rw [List.getElem?_eq_none (by omega)]
      rcases rd_cases coords ((n - 1) * d + 0) with ⟨a, ea⟩ | ea
      · rcases rd_cases coords ((n - 1) * d + 1) with ⟨b, eb⟩ | eb
        · rw [ea, eb, ec]
          rfl
        · rw [ea, eb]
          rfl
      · rw [ea]
        rfl
  obtain ⟨b, hb⟩ := allSpecified_ok hnd hk
  unfold createLeast
  simp only [Crit.get, Res.ok_bind]
  rw [if_neg (by omega), if_neg (by omega), hb, e]
  rfl

/-! ## Densities -/

/-- **C70**, in part: the density of a material in the list of materials is used, one if it has none. -/
theorem C70_density_partial {p : Input} {material : String} {m : String → Option (Option ℝ)} {l : Option ℝ}
    (hm : p.materials = some m) (hl : m material = some l) : geoDensity p material = .ok (l.getD 1) := by
  unfold geoDensity
  rw [hm]
  simp only [Crit.get, Res.ok_bind]
  rw [hl]
  rfl

/-- **C70 is false** for a domain whose material is not in the list: its density is zero, without an error. -/
theorem C70_density_false {p : Input} {material : String} {m : String → Option (Option ℝ)}
    (hm : p.materials = some m) (hl : m material = none) : geoDensity p material = .ok 0 := by
  unfold geoDensity
  rw [hm]
  simp only [Crit.get, Res.ok_bind]
  rw [hl]
  rfl

/-- **C70 is false** for the criterion of the elliptic problem: whatever density the material has, one is
used, unless there is another list with the name of the material at the top of the input. -/
theorem C70_elliptic_density_false {p : Input} {material : String} {m : String → Option (Option ℝ)} {l : Option ℝ}
    (hm : p.materials = some m) (hl : m material = some l) (ht : p.top material = none) :
    ellipticDensity p material = .ok 1 := by
  unfold ellipticDensity
  rw [hm]
  simp only [Crit.get, Res.ok_bind]
  rw [hl, ht]
  rfl

/-- **C70 is false** for the criterion of the elliptic problem: it does not find its list in the list of
criteria, and rejects every input that has it only there. -/
theorem C70_elliptic_list_false {p : Input} {name : String} (h : (p.topCriteria name).properties = none) (B : Body)
    (eig : Tensor → Tensor × (Fin 3 → ℝ)) (o : List Nat → Orders) (extent : Res (ℝ × ℝ × ℝ)) :
    ∃ m, createLeast B eig o extent (ellipticList p name) = .err m :=
  C70_rejects B eig o extent _ (.inl h)

/-! ## Moments of the body -/

theorem coord_varies {d : Nat} (hd : d = 1 ∨ d = 2 ∨ d = 3) {X : Nat → Nat → ℝ} (h : detForm d X ≠ 0) {i : Nat} (hi : i < d) :
    ∃ a, a < d ∧ X a i ≠ X d i := by
  by_contra hc
  push Not at hc
  refine h ?_
  rcases hd with rfl | rfl | rfl
  · have h0 := hc 0 (by omega)
    interval_cases i
    simp [detForm, edge, h0]
  · have h0 := hc 0 (by omega)
    have h1 := hc 1 (by omega)
    interval_cases i <;> simp [detForm, edge, h0, h1]
  · have h0 := hc 0 (by omega)
    have h1 := hc 1 (by omega)
    have h2 := hc 2 (by omega)
    interval_cases i <;> simp [detForm, detj3, edge, h0, h1, h2]

/-- **C69 is false** for second moments: for every body of positive density without flat cells, with at least
one cell, each second moment about an axis is too small. -/
theorem C69_second_false {B : Body} (hB : B.Ok) {o : Orders} (ho : o.Ok B.M) {type : String} {i : Nat}
    (ht : axesOf type = some [i, i]) (hi : i < B.M.dim) {z x : List ℝ} (hz : z.length = B.M.nn)
    (hx : x.length = B.M.nn * B.M.dim) (hdet : ∀ c, c < B.M.nc → detForm B.M.dim (B.M.cellX x c) ≠ 0)
    (hpos : ∀ k, 0 < B.dens k) (hu : ∀ c, c < B.M.nc → ∃ t, 0 < t ∧ ∀ a, a < B.M.dim + 1 → B.M.cellZ z c a = t)
    {k : Nat} (hk : k < B.M.domains.length) (hcell : 0 < B.M.size (B.M.part k))
    {ρ : Nat → (Fin B.M.dim → ℝ) → ℝ} (hρ : Interpolates B z x ρ) :
    ∃ v, (momentFn B type o).value z x = .ok v ∧ v < trueMoment B ρ [i, i] x := by
  refine ⟨_, C69_value hB ho ht (by simpa using hi) hz hx, ?_⟩
  rw [C69_second hB.dim hB.mesh hdet hρ (fun c hc => (hu c hc).imp fun _ h => h.2) hi hi, lt_add_iff_pos_right]
  have one : ∀ k c, c < B.M.size (B.M.part k) → 0 < B.dens k *
      meanDensity (B.M.dim + 1) (B.M.cellZ z (gcell (B.M.part k) c)) *
        volume.real (cellSet B.M.dim (B.M.cellX x (gcell (B.M.part k) c))) *
        spread B.M.dim (fun a => B.M.cellX x (gcell (B.M.part k) c) a i)
          fun a => B.M.cellX x (gcell (B.M.part k) c) a i := by
    intro k c hc
    have hgc := (hB.mesh.domOk k).1 c hc
    obtain ⟨t, ht, he⟩ := hu _ hgc
    have hm : meanDensity (B.M.dim + 1) (B.M.cellZ z (gcell (B.M.part k) c)) = t := by
      rw [← mean_density, mean_congr he]
      unfold mean
      rw [sum_const, card_range, nsmul_eq_mul]
      push_cast
      field_simp
    rw [hm, cellVolume_eq hB.dim]
    obtain ⟨a, ha, hne⟩ := coord_varies hB.dim (hdet _ hgc) hi
    have := abs_pos.2 (hdet _ hgc)
    have hs : 0 < spread B.M.dim (fun a => B.M.cellX x (gcell (B.M.part k) c) a i)
        fun a => B.M.cellX x (gcell (B.M.part k) c) a i := spread_pos (by omega) (Nat.lt_succ_self _) hne
    have := hpos k
    positivity
  refine sum_pos' (fun k _ => sum_nonneg fun c hc => (one k c (mem_range.1 hc)).le) ⟨k, mem_range.2 hk, ?_⟩
  exact sum_pos' (fun c hc => (one k c (mem_range.1 hc)).le) ⟨0, mem_range.2 hcell, one k 0 hcell⟩

/-- The rod of one element. -/
noncomputable def rodBody (r : CubRule ℝ) : Body := ⟨rod, r, fun _ => 1⟩

theorem rodBody_ok {r : CubRule ℝ} (hr : linearTetCubRule 1 = .ok r) : (rodBody r).Ok := ⟨rod_ok, .inl rfl, hr⟩

theorem rod_det : ∀ c, c < rod.nc → detForm rod.dim (rod.cellX ([0, 1] : List ℝ) c) ≠ 0 := by
  intro c hc
  have hc : c < 1 := hc
  interval_cases c
  show (_ : ℝ) ≠ 0
  norm_num [detForm, edge, FeModel.cellX, rod, cellNode, FeModel.npc, at0, atN]

/-- **C69 is false** for first moments when the density varies in a cell: a rod from 0 to 1 with densities 0 and
1 at its ends. -/
theorem C69_first_false : ∃ (B : Body) (o : Orders) (z x : List ℝ) (ρ : Nat → (Fin B.M.dim → ℝ) → ℝ) (v : ℝ),
    B.Ok ∧ o.Ok B.M ∧ z.length = B.M.nn ∧ x.length = B.M.nn * B.M.dim ∧
    (∀ c, c < B.M.nc → detForm B.M.dim (B.M.cellX x c) ≠ 0) ∧ Interpolates B z x ρ ∧
    (momentFn B "FirstX" o).value z x = .ok v ∧ v ≠ trueMoment B ρ [0] x := by
  obtain ⟨r, hr, -⟩ := C21_degree_one (d := 1) (.inl rfl)
  have hB := rodBody_ok hr
  obtain ⟨ρ, hρ⟩ := interpolates_exists (B := rodBody r) (.inl rfl) [0, 1] [0, 1] rod_det
  refine ⟨rodBody r, seqOrders rod, [0, 1], [0, 1], ρ, _, hB, seqOrders_ok rod, rfl, rfl, rod_det, hρ,
    C69_value hB (seqOrders_ok rod) (type := "FirstX") (axes := [0]) rfl (by intro j hj; rw [List.mem_singleton.1 hj]; exact Nat.one_pos) rfl rfl, ?_⟩
  rw [C69_first (B := rodBody r) (.inl rfl) rod_ok rod_det hρ (i := 0) Nat.one_pos]
  refine (lt_add_of_pos_right _ ?_).ne
  show 0 < ∑ k ∈ range 1, ∑ c ∈ range (rod.size (rod.part k)), _
  rw [sum_range_one, show rod.size (rod.part 0) = 1 from rfl, sum_range_one]
  have hz : ∀ a, a < 2 → rod.cellZ ([0, 1] : List ℝ) (gcell (rod.part 0) 0) a = rod.cellX ([0, 1] : List ℝ) (gcell (rod.part 0) 0) a 0 := by
    intro a ha
    interval_cases a <;> rfl
  have hs : spread 1 (rod.cellZ ([0, 1] : List ℝ) (gcell (rod.part 0) 0)) (fun a => rod.cellX ([0, 1] : List ℝ) (gcell (rod.part 0) 0) a 0) =
      spread 1 (fun a => rod.cellX ([0, 1] : List ℝ) (gcell (rod.part 0) 0) a 0) (fun a => rod.cellX ([0, 1] : List ℝ) (gcell (rod.part 0) 0) a 0) :=
    spread_congr hz fun _ _ => rfl
  have hgc : gcell (rod.part 0) 0 < rod.nc := by decide
  obtain ⟨a, ha, hne⟩ := coord_varies (.inl rfl) (rod_det _ hgc) (i := 0) (by decide)
  have hp := spread_pos (d := 1) (v := fun a => rod.cellX ([0, 1] : List ℝ) (gcell (rod.part 0) 0) a 0) (a := a) (b := 1)
    (Nat.lt_succ_of_lt ha) (by omega) hne
  show (0 : ℝ) < 1 * volume.real (cellSet 1 (rod.cellX ([0, 1] : List ℝ) (gcell (rod.part 0) 0))) *
    spread 1 (rod.cellZ ([0, 1] : List ℝ) (gcell (rod.part 0) 0)) (fun a => rod.cellX ([0, 1] : List ℝ) (gcell (rod.part 0) 0) a 0)
  rw [hs, cellVolume_eq (.inl rfl)]
  have := abs_pos.2 (rod_det _ hgc)
  have : 0 < |detForm 1 (rod.cellX ([0, 1] : List ℝ) (gcell (rod.part 0) 0))| := this
  change 0 < 1 * (|detForm 1 (rod.cellX ([0, 1] : List ℝ) (gcell (rod.part 0) 0))| / _) * _
  positivity

/-! ## The hypotheses can be met -/

/-- One tetrahedron. -/
def tetra : FeModel := ⟨3, 1, 1, 4, [0, 1, 2, 3], [0, 3, 6, 9, 12], [1, 2, 3, 0, 2, 3, 0, 1, 3, 0, 1, 2], [[0]]⟩

theorem tetra_ok : tetra.Ok where
  dim := by decide
  ndof := by decide
  mesh := ⟨by decide, by decide⟩
  adj := ⟨by decide, by decide, by decide, by decide, by decide⟩
  graph := by
    intro cell a b hc ha hb
    have ha : a < 4 := ha
    have hb : b < 4 := hb
    have hc : cell < 1 := hc
    interval_cases cell
    interval_cases a <;> interval_cases b <;> decide
  some_domain := by decide
  cells := by decide

/-- Corners of the tetrahedron. -/
noncomputable def tetraX : List ℝ := [0, 0, 0, 1, 0, 0, 0, 1, 0, 0, 0, 1]

theorem tetra_det : ∀ c, c < tetra.nc → detForm tetra.dim (tetra.cellX tetraX c) ≠ 0 := by
  intro c hc
  have hc : c < 1 := hc
  interval_cases c
  show (_ : ℝ) ≠ 0
  norm_num [detForm, detj3, edge, FeModel.cellX, tetra, tetraX, cellNode, FeModel.npc, at0, atN]

theorem tetra_mass (r : CubRule ℝ) : massOf ⟨tetra, r, fun _ => 1⟩ [1, 1, 1, 1] tetraX ≠ 0 := by
  unfold massOf pointMoment
  show ∑ k ∈ range 1, ∑ c ∈ range (tetra.size (tetra.part k)), _ ≠ _
  rw [sum_range_one, show tetra.size (tetra.part 0) = 1 from rfl, sum_range_one]
  have hgc : gcell (tetra.part 0) 0 < tetra.nc := by decide
  have := abs_pos.2 (tetra_det _ hgc)
  have m : meanDensity (tetra.dim + 1) (tetra.cellZ [1, 1, 1, 1] (gcell (tetra.part 0) 0)) = 1 := by
    rw [show gcell (tetra.part 0) 0 = 0 by decide]
    norm_num [meanDensity, tetra, FeModel.cellZ, cellNode, sum_range_succ, at0, atN, FeModel.npc]
  dsimp only
  rw [m, cellVolume_eq (d := tetra.dim) (.inr (.inr rfl))]
  simp only [List.map_nil, List.prod_nil, mul_one, one_mul]
  positivity

/-- The hypotheses of the theorems on C69 and C70 hold for a tetrahedron of density one. -/
example : ∃ B : Body, B.Ok ∧ B.M.dim = 3 ∧ (seqOrders B.M).Ok B.M ∧ (∀ k, 0 < B.dens k) ∧
    ∃ z x ρ, z.length = B.M.nn ∧ x.length = B.M.nn * B.M.dim ∧
      (∀ c, c < B.M.nc → detForm B.M.dim (B.M.cellX x c) ≠ 0) ∧
      (∀ c, c < B.M.nc → ∃ t, 0 < t ∧ ∀ a, a < B.M.dim + 1 → B.M.cellZ z c a = t) ∧
      Interpolates B z x ρ ∧ massOf B z x ≠ 0 := by
  obtain ⟨r, hr, -⟩ := C21_degree_one (d := 3) (.inr (.inr rfl))
  obtain ⟨ρ, hρ⟩ := interpolates_exists (B := ⟨tetra, r, fun _ => 1⟩) (.inr (.inr rfl)) [1, 1, 1, 1] tetraX tetra_det
  refine ⟨⟨tetra, r, fun _ => 1⟩, ⟨tetra_ok, .inr (.inr rfl), hr⟩, rfl, seqOrders_ok _, fun _ => one_pos, [1, 1, 1, 1], tetraX, ρ,
    rfl, rfl, tetra_det, fun c hc => ⟨1, one_pos, fun a ha => ?_⟩, hρ, tetra_mass r⟩
  have hc : c < 1 := hc
  have ha : a < 4 := ha
  interval_cases c
  interval_cases a <;> rfl

/-- The hypotheses of `C70_about_cg_false` on the gold values can be met for every body. -/
example (B : Body) (z x : List ℝ) : ∃ (eig : Tensor → Tensor × (Fin 3 → ℝ)) (g : String → ℝ),
    EigOk eig (goldAboutCentre g) ∧
    centreOf B z x ⬝ᵥ centreOf B z x ≠ ![g "CGx", g "CGy", g "CGz"] ⬝ᵥ ![g "CGx", g "CGy", g "CGz"] := by
  obtain ⟨eig, h⟩ := eig_exists
  set s := centreOf B z x ⬝ᵥ centreOf B z x with hs
  have h0 : 0 ≤ s := by
    rw [hs]
    exact Finset.sum_nonneg fun i _ => mul_self_nonneg _
  refine ⟨eig, fun _ => s + 1, h _ ?_, ?_⟩
  · funext i j
    simp only [goldAboutCentre, parallelAxis, Matrix.transpose_apply, Matrix.sub_apply, Matrix.smul_apply,
      Matrix.one_apply, Matrix.vecMulVec_apply, eq_comm (a := i)]
    fin_cases i <;> fin_cases j <;> rfl
  · simp only [dotProduct, Fin.sum_univ_three]
    show s ≠ (s + 1) * (s + 1) + (s + 1) * (s + 1) + (s + 1) * (s + 1)
    nlinarith

/-- The hypotheses of `C70_matches` hold for a list of all properties in another order, with an exact eigenvalue
decomposition, and for a list of two. -/
example : ∃ eig : Tensor → Tensor × (Fin 3 → ℝ), (∀ gold, EigOk eig (goldAboutCentre (lookUp allNames.reverse gold))) ∧
    allNames.reverse.Nodup ∧ allNames.reverse.Perm allNames ∧ ["CGx", "Mass"].Nodup ∧ ∀ n ∈ ["CGx", "Mass"], n ∈ allNames := by
  obtain ⟨eig, h⟩ := eig_exists
  refine ⟨eig, fun gold => h _ ?_, by decide, List.reverse_perm _, by decide, by decide⟩
  funext i j
  simp only [goldAboutCentre, parallelAxis, Matrix.transpose_apply, Matrix.sub_apply, Matrix.smul_apply, Matrix.one_apply,
    Matrix.vecMulVec_apply, eq_comm (a := i)]
  rw [mul_comm (_ : ℝ) (_ : ℝ)]
  congr 1
  fin_cases i <;> fin_cases j <;> rfl

end Plato.Mass
