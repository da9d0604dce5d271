import Verif.Mech.LoadModel
import Verif.Mech.Stiffness
import Verif.Simplex.Basis
import Verif.Simplex.Cubature

/-!
# The data of a body load
-/

namespace Plato.Mech
open Finset Plato

section
variable {K : Type} [CommRing K]

theorem nodeCoordinate_ok {npc d nc n : Nat} {c2n : List Nat} (hm : Mesh c2n npc nc n) {x : List K}
    (hx : x.length = n * d) {gc a k : Nat} (hg : gc < nc) (ha : a < npc) (hk : k < d) :
    nodeCoordinate npc d c2n x gc a k = .ok (at0 x (d * cellNode npc c2n gc a + k)) := by
  unfold nodeCoordinate
  rw [rd_atN (hm.idx hg ha), Res.ok_bind]
  have e : atN c2n (gc * npc + a) = cellNode npc c2n gc a := rfl
  rw [e, Nat.mul_comm, rd_at0]
  rw [hx, Nat.mul_comm n]
  have h1 := hm.node_lt hg ha
  calc d * cellNode npc c2n gc a + k < d * cellNode npc c2n gc a + d := by omega
    _ = d * (cellNode npc c2n gc a + 1) := by ring
    _ ≤ d * n := Nat.mul_le_mul_left d h1

/-- Addition to the first `n` components of one point. -/
def addPoint (mp : V3 K) (c p n : Nat) (δ : Nat → K) : V3 K :=
  ⟨mp.d0, mp.d1, mp.d2, fun c' p' k => if c' = c ∧ p' = p ∧ k < n then mp.e c' p' k + δ k else mp.e c' p' k⟩

theorem addPoint_loop {mp : V3 K} {c p d : Nat} (hc : c < mp.d0) (hp : p < mp.d1) (hd : d ≤ mp.d2)
    {rdx : Nat → Res K} {X : Nat → K} (hX : ∀ k, k < d → rdx k = .ok (X k)) (a : K) :
    (forRange 0 d mp fun k mp => do
      let x ← rdx k
      let old ← vrd3 mp c p k
      vwr3 mp c p k (old + a * x)) = .ok (addPoint mp c p d fun k => a * X k) := by
  have := forRange_eq (n := d) (body := fun k (mp : V3 K) => do
      let x ← rdx k
      let old ← vrd3 mp c p k
      vwr3 mp c p k (old + a * x)) (fun j => addPoint mp c p j fun k => a * X k) (by
    intro k hk
    rw [hX k hk, Res.ok_bind, vrd3_ok (y := addPoint mp c p k fun k => a * X k) hc hp (by show k < mp.d2; omega),
      Res.ok_bind, vwr3,
      if_pos ⟨hc, hp, by show k < mp.d2; omega⟩]
    congr 1
    unfold addPoint
    congr 1
    funext c' p' k'
    by_cases h : c' = c ∧ p' = p ∧ k' = k
    · obtain ⟨rfl, rfl, rfl⟩ := h
      simp
    · rw [if_neg h]
      by_cases h2 : c' = c ∧ p' = p
      · obtain ⟨rfl, rfl⟩ := h2
        have : k' ≠ k := fun e => h ⟨rfl, rfl, e⟩
        have : k' < k + 1 ↔ k' < k := by omega
        simp [this]
      · have h3 : ∀ j, ¬(c' = c ∧ p' = p ∧ k' < j) := fun j hh => h2 ⟨hh.1, hh.2.1⟩
        dsimp only
        rw [if_neg (h3 _), if_neg (h3 _)])
  rw [show addPoint mp c p 0 (fun k => a * X k) = mp from by simp [addPoint]] at this
  exact this

theorem mapPoint_ok {d nc n : Nat} {c2n : List Nat} (hm : Mesh c2n (d + 1) nc n) {x : List K}
    (hx : x.length = n * d) {gc c p : Nat} (hg : gc < nc) {ref : V2 K} (hp' : p < ref.d0) (hr : d ≤ ref.d1)
    {mp : V3 K} (hc : c < mp.d0) (hp : p < mp.d1) (hd : d ≤ mp.d2) :
    mapPoint d c2n x ref gc c p mp = .ok (addPoint mp c p d fun k =>
      ∑ a ∈ range d, ref.e p a * at0 x (d * cellNode (d + 1) c2n gc a + k) +
        (1 - ∑ a ∈ range d, ref.e p a) * at0 x (d * cellNode (d + 1) c2n gc d + k)) := by
  unfold mapPoint
  have h1 := forRange_eq (n := d) (body := fun a (s : K × V3 K) => do
      let nv ← vrd2 ref p a
      let mp ← forRange 0 d s.2 fun k mp => do
        let x ← nodeCoordinate (d + 1) d c2n x gc a k
        let old ← vrd3 mp c p k
        vwr3 mp c p k (old + nv * x)
      pure (s.1 - nv, mp))
    (fun j => (1 - ∑ a ∈ range j, ref.e p a, addPoint mp c p d fun k =>
      ∑ a ∈ range j, ref.e p a * at0 x (d * cellNode (d + 1) c2n gc a + k))) (by
    intro a ha
    rw [vrd2_ok hp' (by omega), Res.ok_bind]
    rw [addPoint_loop (mp := addPoint mp c p d fun k =>
      ∑ a ∈ range a, ref.e p a * at0 x (d * cellNode (d + 1) c2n gc a + k)) hc hp hd
      (fun k hk => nodeCoordinate_ok hm hx hg (by omega) hk), Res.ok_bind, Res.pure_eq]
    congr 2
    · rw [sum_range_succ]; ring
    · unfold addPoint
      congr 1
      funext c' p' k'
      by_cases h : c' = c ∧ p' = p ∧ k' < d
      · simp only [h, and_self, if_true, sum_range_succ]; ring
      · simp only [h, if_false])
  simp only [range_zero, sum_empty, sub_zero] at h1
  rw [show addPoint mp c p d (fun _ => 0) = mp from by simp [addPoint]] at h1
  rw [h1, Res.ok_bind]
  simp only
  rw [addPoint_loop (mp := addPoint mp c p d _) hc hp hd (fun k hk => nodeCoordinate_ok hm hx hg (by omega) hk)]
  congr 1
  unfold addPoint
  congr 1
  funext c' p' k'
  by_cases h : c' = c ∧ p' = p ∧ k' < d
  · simp only [h, and_self, if_true]; ring
  · simp only [h, if_false]

/-- The image of a point: the combination of the nodes with the values of the basis functions. -/
def barycentric (d : Nat) (ξ : Nat → K) (X : Nat → Nat → K) (k : Nat) : K :=
  ∑ a ∈ range d, ξ a * X a k + (1 - ∑ a ∈ range d, ξ a) * X d k

/-- The mapped points are the images of the reference points, for every schedule. -/
theorem mapPoints_ok {d nc n : Nat} {c2n : List Nat} (hm : Mesh c2n (d + 1) nc n) {x : List K}
    (hx : x.length = n * d) {cells order : List Nat} (hcells : ∀ c ∈ cells, c < nc)
    (ho : IsSchedule order cells.length) {ref : V2 K} {np : Nat} (hp : ref.d0 = np) (hr : ref.d1 = d)
    {mp : V3 K} (h0 : mp.d0 = cells.length) (h1 : mp.d1 = np) (h2 : mp.d2 = d) :
    mapPoints d c2n x cells order ref mp = .ok ⟨cells.length, np, d, fun c p k =>
      if c < cells.length ∧ p < np ∧ k < d then
        barycentric d (ref.e p) (fun a k => at0 x (d * cellNode (d + 1) c2n (atN cells c) a + k)) k
      else 0⟩ := by
  unfold mapPoints
  rw [parFor_cells ho (fun c m p k => if p < np ∧ k < d then m p k +
      barycentric d (ref.e p) (fun a k => at0 x (d * cellNode (d + 1) c2n (atN cells c) a + k)) k else m p k)]
  · simp only [h0, h1, h2]
    congr 2
    funext c p k
    by_cases hc : c < cells.length
    · by_cases h : p < np ∧ k < d
      · simp [hc, h]
      · simp [hc, h]
    · simp [hc]
  · intro c z hc z0 z1 z2
    rw [rd_atN hc, Res.ok_bind]
    have hg : atN cells c < nc := by
      apply hcells
      show at0 cells c ∈ cells
      rw [at0_eq hc]
      exact List.getElem_mem hc
    have := forRange_eq (n := np) (body := mapPoint d c2n x ref (atN cells c) c) (fun j =>
      z.cell c fun p k => if p < j ∧ k < d then z.e c p k +
        barycentric d (ref.e p) (fun a k => at0 x (d * cellNode (d + 1) c2n (atN cells c) a + k)) k else z.e c p k) (by
      intro p hp'
      have z0' : z.d0 = cells.length := z0.trans h0
      have z1' : z.d1 = np := z1.trans h1
      have z2' : z.d2 = d := z2.trans h2
      rw [mapPoint_ok hm hx hg (by omega) (by omega) (by show c < z.d0; omega) (by show p < z.d1; omega)
        (by show d ≤ z.d2; omega)]
      congr 1
      unfold addPoint V3.cell
      congr 1
      funext c' p' k'
      by_cases hcc : c' = c
      · subst hcc
        by_cases hpp : p' = p
        · subst hpp
          by_cases hk : k' < d
          · simp [hk, barycentric]
          · simp [hk]
        · have : p' < p + 1 ↔ p' < p := by omega
          simp [hpp, this]
      · simp [hcc])
    rw [h1]
    simp only [Nat.not_lt_zero, false_and, if_false] at this
    rw [show z.cell c (fun p k => z.e c p k) = z from V3.cell_self z c] at this
    exact this

theorem jacobianDet_ok {d nc n : Nat} {c2n : List Nat} (hm : Mesh c2n (d + 1) nc n) {x : List K}
    (hx : x.length = n * d) {gc : Nat} (hg : gc < nc) :
    jacobianDet d c2n x gc = .ok (Matrix.of fun i j : Fin d =>
      at0 x (d * cellNode (d + 1) c2n gc j + i) - at0 x (d * cellNode (d + 1) c2n gc d + i)).det := by
  unfold jacobianDet
  have h := forRange_eq (n := d) (body := fun i (J : V2 K) =>
    forRange 0 d J fun j J => do
      let x' ← nodeCoordinate (d + 1) d c2n x gc j i
      let y ← nodeCoordinate (d + 1) d c2n x gc d i
      vwr2 J i j (x' - y)) (fun m => ⟨d, d, fun i j => if i < m ∧ j < d then
        at0 x (d * cellNode (d + 1) c2n gc j + i) - at0 x (d * cellNode (d + 1) c2n gc d + i) else 0⟩) (by
    intro i hi
    have h2 := forRange_eq (n := d) (body := fun j (J : V2 K) => do
      let x' ← nodeCoordinate (d + 1) d c2n x gc j i
      let y ← nodeCoordinate (d + 1) d c2n x gc d i
      vwr2 J i j (x' - y)) (fun m => ⟨d, d, fun r j => if (r < i ∧ j < d) ∨ (r = i ∧ j < m) then
        at0 x (d * cellNode (d + 1) c2n gc j + r) - at0 x (d * cellNode (d + 1) c2n gc d + r) else 0⟩) (by
      intro j hj
      rw [nodeCoordinate_ok hm hx hg (by omega) hi, Res.ok_bind, nodeCoordinate_ok hm hx hg (by omega) hi,
        Res.ok_bind, vwr2, if_pos ⟨hi, hj⟩]
      congr 2
      funext r c
      by_cases h : r = i ∧ c = j
      · obtain ⟨rfl, rfl⟩ := h
        simp
      · rw [if_neg h]
        by_cases hr : r = i
        · subst hr
          have : c ≠ j := fun e => h ⟨rfl, e⟩
          have : c < j + 1 ↔ c < j := by omega
          simp [this]
        · simp [hr])
    simp only [Nat.not_lt_zero, and_false, or_false] at h2
    rw [h2]
    congr 2
    funext r c
    by_cases hr : r = i
    · subst hr
      simp
    · have : r < i + 1 ↔ r < i := by omega
      simp [hr, this])
  simp only [Nat.not_lt_zero, false_and, if_false] at h
  rw [h, Res.ok_bind, Res.pure_eq]
  congr 2
  ext i j
  simp

end

theorem cellDets_ok {d nc n : Nat} {c2n : List Nat} (hm : Mesh c2n (d + 1) nc n) {x : List ℝ}
    (hx : x.length = n * d) :
    cellDets d c2n x nc = .ok ((List.range nc).map fun gc => |(Matrix.of fun i j : Fin d =>
      at0 x (d * cellNode (d + 1) c2n gc j + i) - at0 x (d * cellNode (d + 1) c2n gc d + i)).det|) := by
  unfold cellDets
  have : ∀ l : List Nat, (∀ g ∈ l, g < nc) → (l.mapM fun gc => do
      let j ← jacobianDet d c2n x gc
      pure |j|) = (Res.ok (l.map fun gc => |(Matrix.of fun i j : Fin d =>
      at0 x (d * cellNode (d + 1) c2n gc j + i) - at0 x (d * cellNode (d + 1) c2n gc d + i)).det|) : Res (List ℝ)) := by
    intro l
    induction l with
    | nil => intro _; rfl
    | cons g l ih =>
      intro hl
      rw [List.mapM_cons, jacobianDet_ok hm hx (hl g (by simp)), ih fun g' hg' => hl g' (by simp [hg'])]
      rfl
  exact this _ fun g hg => List.mem_range.1 hg

/-- The rule of degree one: one point with equal barycentric coordinates. -/
theorem cubature_one (lits : CubLits ℝ) {d : Nat} (hd : d = 1 ∨ d = 2 ∨ d = 3) :
    getNumCubaturePoints d 1 = .ok 1 ∧
    ∃ p w, getCubature lits d 1 ⟨1, d, fun _ _ => 0⟩ [0] = .ok (p, w) ∧ w = [1 / (d.factorial : ℝ)] ∧
      p.d0 = 1 ∧ p.d1 = d ∧ ∀ k, k < d → p.e 0 k = 1 / (d + 1 : ℝ) := by
  rcases hd with rfl | rfl | rfl
  · refine ⟨rfl, _, _, rfl, by norm_num [Nat.factorial], rfl, rfl, fun k hk => ?_⟩
    interval_cases k <;> norm_num
  · refine ⟨rfl, _, _, rfl, by norm_num [Nat.factorial], rfl, rfl, fun k hk => ?_⟩
    interval_cases k <;> norm_num
  · refine ⟨rfl, _, _, rfl, by norm_num [Nat.factorial], rfl, rfl, fun k hk => ?_⟩
    interval_cases k <;> norm_num

/-- Centre of a cell. -/
noncomputable def cellCentre (d : Nat) (X : Nat → Nat → ℝ) (k : Nat) : ℝ :=
  if k < d then (∑ a ∈ range (d + 1), X a k) / (d + 1 : ℝ) else 0

/-- What `onMesh` returns. -/
theorem onMesh_ok (L : LoadFn) (lits : CubLits ℝ) {d nc n : Nat} (hd : d = 1 ∨ d = 2 ∨ d = 3)
    {c2n : List Nat} (hm : Mesh c2n (d + 1) nc n) {x : List ℝ} (hx : x.length = n * d) {cells : List Nat}
    (hcells : ∀ c ∈ cells, c < nc) {oB oM : List Nat} (hB : IsSchedule oB 1)
    (hM : IsSchedule oM cells.length) :
    (L.onMesh lits d c2n nc x cells oB oM).Sat fun B => B.numPoints = 1 ∧
      B.weights = [1 / (d.factorial : ℝ)] ∧ B.dof = L.dof ∧ (d + 1 ≤ B.basis.d0 ∧ 1 ≤ B.basis.d1) ∧
      (∀ a, a < d + 1 → B.basis.e a 0 = 1 / (d + 1 : ℝ)) ∧
      B.values = (List.range cells.length).map (fun c =>
        L.f (cellCentre d fun a k => at0 x (d * cellNode (d + 1) c2n (atN cells c) a + k))) ∧
      B.det = (List.range nc).map fun gc =>
        |detForm d fun a k => at0 x (d * cellNode (d + 1) c2n gc a + k)| := by
  obtain ⟨hn, p, w, hc, hw, p0, p1, hp⟩ := cubature_one lits hd
  have hd1 : (d : ℝ) + 1 ≠ 0 := by positivity
  obtain ⟨b, hb, b0, b1, hbv⟩ := basisValues_ok hB (ref := p) (values := ⟨d + 1, 1, fun _ _ => 0⟩) p0 (by rw [p1]) rfl
  unfold LoadFn.onMesh
  rw [hn, Res.ok_bind, show List.replicate 1 (0 : ℝ) = [0] from rfl, hc, Res.ok_bind]
  simp only
  rw [hb, Res.ok_bind, mapPoints_ok hm hx hcells hM p0 p1 rfl rfl rfl, Res.ok_bind, cellDets_ok hm hx,
    Res.ok_bind, Res.pure_eq]
  refine Res.Sat.ok ⟨rfl, hw, rfl, ⟨by rw [b0, p1], by rw [b1]⟩, fun a ha => ?_, ?_, ?_⟩
  · rw [p1] at hbv
    rcases Nat.lt_succ_iff_lt_or_eq.1 ha with h | rfl
    · rw [(hbv 0 one_pos).1 a h, hp a h]
    · rw [(hbv 0 one_pos).2, sum_congr rfl fun k hk => hp k (mem_range.1 hk), sum_const, card_range, nsmul_eq_mul]
      field_simp
      ring
  · rw [Nat.mul_one]
    refine List.map_congr_left fun c hcc => ?_
    congr 1
    funext k
    have hcl := List.mem_range.1 hcc
    simp only [Nat.div_one, Nat.mod_one, hcl, true_and, Nat.one_pos]
    unfold cellCentre
    split_ifs with hk
    · unfold barycentric
      rw [sum_congr rfl fun a ha => by rw [hp a (mem_range.1 ha)], sum_congr rfl fun a ha => hp a (mem_range.1 ha),
        sum_const, card_range, nsmul_eq_mul, ← mul_sum, sum_range_succ (n := d)]
      field_simp
      ring
    · rfl
  · refine List.map_congr_left fun gc _ => ?_
    rw [detForm_eq hd]
    rfl

end Plato.Mech
