import Verif.Bnd.Model
import Verif.Blas.Matrix
import Verif.Fem.Residual
import Mathlib.Data.Nat.Find

/-!
# The kernel of a surface integral: what every face adds, and every order of the additions
-/

namespace Plato.Bnd
open Finset Plato Plato.Mech

/-- Local number, in the cell, of node `i` of the face. -/
def localOf (d : Nat) (c2n f2n : List Nat) (cell face i : Nat) : Nat :=
  Nat.findGreatest (fun j => atN f2n (face * d + i) = atN c2n (cell * (d + 1) + j)) d

/-- Cells of a face. -/
def Faces.cellsOf (F : Faces) (face : Nat) : List Nat :=
  (List.range' (atN F.up face) (atN F.up (face + 1) - atN F.up face)).map (atN F.upCells)

/-- The faces of the side set are faces of the mesh, and the nodes of a face are nodes of each of its
cells. -/
structure FacesOk (d nc : Nat) (c2n : List Nat) (F : Faces) (set : List Nat) : Prop where
  up : ∀ f ∈ set, f + 1 < F.up.length
  mono : ∀ f ∈ set, atN F.up f ≤ atN F.up (f + 1)
  upCells : ∀ f ∈ set, atN F.up (f + 1) ≤ F.upCells.length
  f2n : ∀ f ∈ set, (f + 1) * d ≤ F.f2n.length
  cell : ∀ f ∈ set, ∀ c ∈ F.cellsOf f, c < nc
  sub : ∀ f ∈ set, ∀ c ∈ F.cellsOf f, ∀ i, i < d →
    ∃ j, j < d + 1 ∧ atN F.f2n (f * d + i) = atN c2n (c * (d + 1) + j)

theorem localOf_spec {d : Nat} {c2n f2n : List Nat} {cell face i : Nat}
    (h : ∃ j, j < d + 1 ∧ atN f2n (face * d + i) = atN c2n (cell * (d + 1) + j)) :
    localOf d c2n f2n cell face i < d + 1 ∧
      cellNode (d + 1) c2n cell (localOf d c2n f2n cell face i) = atN f2n (face * d + i) := by
  obtain ⟨j, hj, e⟩ := h
  refine ⟨Nat.lt_succ_of_le (Nat.findGreatest_le d), ?_⟩
  exact (Nat.findGreatest_spec (P := fun j => atN f2n (face * d + i) = atN c2n (cell * (d + 1) + j))
    (Nat.lt_succ_iff.1 hj) e).symm

/-- The index map is complete and does not depend on what the array held before. -/
theorem faceLocalNodes_ok {d : Nat} {c2n f2n : List Nat} {cell face : Nat}
    (hf : (face + 1) * d ≤ f2n.length) (hc : (cell + 1) * (d + 1) ≤ c2n.length)
    (h : ∀ i, i < d → ∃ j, j < d + 1 ∧ atN f2n (face * d + i) = atN c2n (cell * (d + 1) + j))
    (init : Nat → Nat) :
    (faceLocalNodes d c2n f2n cell face init).Sat fun (loc : Nat → Nat) => ∀ i, i < d → loc i = localOf d c2n f2n cell face i := by
  unfold faceLocalNodes
  refine (forRange_inv (fun n (loc : Nat → Nat) => ∀ i, i < n → loc i = localOf d c2n f2n cell face i) (Nat.zero_le _)
    (by intro i hi; omega) ?_)
  intro i loc _ hi hloc
  refine (forRange_inv (fun j (loc' : Nat → Nat) => (∀ i', i' ≠ i → loc' i' = loc i') ∧
    ((∃ j', j' < j ∧ atN f2n (face * d + i) = atN c2n (cell * (d + 1) + j')) →
      loc' i = Nat.findGreatest (fun j => atN f2n (face * d + i) = atN c2n (cell * (d + 1) + j)) (j - 1)))
    (Nat.zero_le _) ⟨fun _ _ => rfl, by rintro ⟨j', hj', -⟩; omega⟩ ?_).mono ?_
  · rintro j loc' _ hj ⟨h1, h2⟩
    have b1 : face * d + i < f2n.length := by
      have : (face + 1) * d = face * d + d := Nat.succ_mul _ _
      omega
    have b2 : cell * (d + 1) + j < c2n.length := by
      have : (cell + 1) * (d + 1) = cell * (d + 1) + (d + 1) := Nat.succ_mul _ _
      omega
    rw [rd_atN b1, Res.ok_bind, rd_atN b2, Res.ok_bind]
    refine Res.Sat.ok ?_
    by_cases hm : atN f2n (face * d + i) = atN c2n (cell * (d + 1) + j)
    · rw [if_pos hm]
      refine ⟨fun i' hi' => by rw [Function.update_of_ne hi']; exact h1 i' hi', fun _ => ?_⟩
      rw [Function.update_self, Nat.add_sub_cancel]
      exact (Nat.findGreatest_eq (P := fun j => atN f2n (face * d + i) = atN c2n (cell * (d + 1) + j)) hm).symm
    · rw [if_neg hm]
      refine ⟨h1, ?_⟩
      rintro ⟨j', hj', e⟩
      have hne : j' ≠ j := by rintro rfl; exact hm e
      rw [h2 ⟨j', by omega, e⟩, Nat.add_sub_cancel]
      obtain ⟨j0, rfl⟩ : ∃ j0, j = j0 + 1 := ⟨j - 1, by omega⟩
      rw [Nat.add_sub_cancel, Nat.findGreatest_of_not (P := fun j => atN f2n (face * d + i) = atN c2n (cell * (d + 1) + j)) hm]
  · rintro loc' ⟨h1, h2⟩ i' hi'
    by_cases hii : i' = i
    · subst hii
      obtain ⟨j, hj, e⟩ := h i' hi
      rw [h2 ⟨j, hj, e⟩]
      rfl
    · rw [h1 i' hii]
      exact hloc i' (by omega)

section
variable {R : Type} [CommRing R]

/-- Weight of a face with the nodes `P`. -/
def weightForm (sqrt : R → R) (d : Nat) (m : R) (P : Nat → Nat → R) : R :=
  if d = 1 then m
  else if d = 2 then m * sqrt ((P 0 0 - P 1 0) * (P 0 0 - P 1 0) + (P 0 1 - P 1 1) * (P 0 1 - P 1 1))
  else
    let a := fun k => P 0 k - P 2 k
    let b := fun k => P 1 k - P 2 k
    m * sqrt ((a 1 * b 2 - a 2 * b 1) * (a 1 * b 2 - a 2 * b 1) + (a 2 * b 0 - a 0 * b 2) * (a 2 * b 0 - a 0 * b 2) +
      (a 0 * b 1 - a 1 * b 0) * (a 0 * b 1 - a 1 * b 0))

theorem surfaceJacobian_ok {d cell f : Nat} {loc : Nat → Nat} {x J : V3 R} (hd : d ≠ 0) (hc : cell < x.d0)
    (hl : ∀ i, i < d → loc i < x.d1) (h2 : x.d2 = d) (hf : f < J.d0) (hj1 : J.d1 = d - 1) (hj2 : J.d2 = d) :
    (surfaceJacobian d cell f loc x J).Sat fun (J' : V3 R) => J'.d0 = J.d0 ∧ J'.d1 = J.d1 ∧ J'.d2 = J.d2 ∧
      ∀ n k, n < d - 1 → k < d → J'.e f n k = x.e cell (loc n) k - x.e cell (loc (d - 1)) k := by
  unfold surfaceJacobian
  by_cases h1 : d = 1
  · subst h1
    rw [if_pos rfl]
    exact Res.Sat.ok ⟨rfl, rfl, rfl, fun n k hn => by omega⟩
  rw [if_neg h1]
  refine (forRange_inv (fun n (J' : V3 R) => J'.d0 = J.d0 ∧ J'.d1 = J.d1 ∧ J'.d2 = J.d2 ∧
    ∀ n' k, n' < n → k < d → J'.e f n' k = x.e cell (loc n') k - x.e cell (loc (d - 1)) k) (Nat.zero_le _)
    ⟨rfl, rfl, rfl, fun n k hn => by omega⟩ ?_)
  rintro n J1 _ hn ⟨a0, a1, a2, a3⟩
  refine (forRange_inv (fun k (J' : V3 R) => J'.d0 = J.d0 ∧ J'.d1 = J.d1 ∧ J'.d2 = J.d2 ∧
    (∀ n' k', n' < n → k' < d → J'.e f n' k' = x.e cell (loc n') k' - x.e cell (loc (d - 1)) k') ∧
    ∀ k', k' < k → J'.e f n k' = x.e cell (loc n) k' - x.e cell (loc (d - 1)) k') (Nat.zero_le _)
    ⟨a0, a1, a2, a3, fun k' hk' => by omega⟩ ?_).mono ?_
  · rintro k J2 _ hk ⟨b0, b1, b2, b3, b4⟩
    rw [vrd3_ok hc (hl n (by omega)) (by omega), Res.ok_bind, vrd3_ok hc (hl (d - 1) (by omega)) (by omega), Res.ok_bind]
    unfold vwr3
    rw [if_pos (by omega)]
    refine Res.Sat.ok ⟨b0, b1, b2, ?_, ?_⟩
    · intro n' k' hn' hk'
      show (if _ then _ else _) = _
      rw [if_neg (by omega)]
      exact b3 n' k' hn' hk'
    · intro k' hk'
      show (if _ then _ else _) = _
      by_cases hkk : k' = k
      · subst hkk
        rw [if_pos ⟨rfl, rfl, rfl⟩]
      · rw [if_neg (by omega)]
        exact b4 k' (by omega)
  · rintro J2 ⟨b0, b1, b2, b3, b4⟩
    refine ⟨b0, b1, b2, fun n' k hn' hk => ?_⟩
    by_cases hnn : n' = n
    · subst hnn; exact b4 k hk
    · exact b3 n' k (by omega) hk

theorem surfaceWeight_ok (sqrt : R → R) {d f : Nat} (hd : d = 1 ∨ d = 2 ∨ d = 3) (m : R) {J : V3 R}
    (hf : f < J.d0) (hj1 : J.d1 = d - 1) (hj2 : J.d2 = d) {P : Nat → Nat → R}
    (hJ : ∀ n k, n < d - 1 → k < d → J.e f n k = P n k - P (d - 1) k) :
    surfaceWeight sqrt d f m J = .ok (weightForm sqrt d m P) := by
  unfold surfaceWeight weightForm
  rcases hd with rfl | rfl | rfl
  · rfl
  · simp only [if_neg (show ¬ 2 = 1 by omega), if_true]
    unfold surfaceWeight2
    rw [vrd3_ok hf (by omega) (by omega), Res.ok_bind, vrd3_ok hf (by omega) (by omega), Res.ok_bind,
      hJ 0 0 (by omega) (by omega), hJ 0 1 (by omega) (by omega)]
    rfl
  · simp only [if_neg (show ¬ 3 = 1 by omega), if_neg (show ¬ 3 = 2 by omega), if_true]
    unfold surfaceWeight3
    rw [vrd3_ok hf (by omega) (by omega), Res.ok_bind, vrd3_ok hf (by omega) (by omega), Res.ok_bind,
      vrd3_ok hf (by omega) (by omega), Res.ok_bind, vrd3_ok hf (by omega) (by omega), Res.ok_bind,
      vrd3_ok hf (by omega) (by omega), Res.ok_bind, vrd3_ok hf (by omega) (by omega), Res.ok_bind,
      hJ 0 0 (by omega) (by omega), hJ 0 1 (by omega) (by omega), hJ 0 2 (by omega) (by omega),
      hJ 1 0 (by omega) (by omega), hJ 1 1 (by omega) (by omega), hJ 1 2 (by omega) (by omega)]
    rfl

omit [CommRing R] in
theorem sum_getD {A : Type} [AddCommMonoid A] (l : List Nat) (g : Nat → A) :
    (l.map g).sum = ∑ f ∈ range l.length, g (l.getD f 0) := by
  induction l with
  | nil => rfl
  | cons a l ih =>
    rw [List.length_cons, sum_range_succ', List.map_cons, List.sum_cons, ih, add_comm]
    rfl

/-- What a face adds. -/
def faceAddsOf (sqrt : R → R) (d : Nat) (Y : Layout) (c2n : List Nat) (F : Faces) (m : R)
    (val : Nat → Nat → R → Nat → R) (x : Nat → Nat → Nat → R) (face : Nat) : List (Add R) :=
  (F.cellsOf face).flatMap fun cell => cellAdds d Y cell (localOf d c2n F.f2n cell face)
    (val cell face (weightForm sqrt d m fun n k => x cell (localOf d c2n F.f2n cell face n) k))

omit [CommRing R] in
theorem cellAdds_congr {d : Nat} {Y : Layout} {cell : Nat} {loc loc' : Nat → Nat} {t : Nat → R}
    (h : ∀ i, i < d → loc i = loc' i) : cellAdds d Y cell loc t = cellAdds d Y cell loc' t := by
  unfold cellAdds
  rw [List.flatMap_def, List.flatMap_def]
  congr 1
  refine List.map_congr_left fun n hn => ?_
  rw [h n (List.mem_range.1 hn)]

theorem weightForm_congr (sqrt : R → R) {d : Nat} (hd : d = 1 ∨ d = 2 ∨ d = 3) (m : R) {P Q : Nat → Nat → R}
    (h : ∀ n k, n < d → k < d → P n k = Q n k) : weightForm sqrt d m P = weightForm sqrt d m Q := by
  unfold weightForm
  rcases hd with rfl | rfl | rfl
  · rfl
  · simp only [if_neg (show ¬ 2 = 1 by omega), if_true, h 0 0 (by omega) (by omega), h 0 1 (by omega) (by omega),
      h 1 0 (by omega) (by omega), h 1 1 (by omega) (by omega)]
  · simp only [h 0 0 (by omega) (by omega), h 0 1 (by omega) (by omega), h 0 2 (by omega) (by omega),
      h 1 0 (by omega) (by omega), h 1 1 (by omega) (by omega), h 1 2 (by omega) (by omega),
      h 2 0 (by omega) (by omega), h 2 1 (by omega) (by omega), h 2 2 (by omega) (by omega)]

theorem faceAdds_ok (sqrt : R → R) {d : Nat} (hd : d = 1 ∨ d = 2 ∨ d = 3) (Y : Layout) {nc : Nat} {c2n : List Nat}
    (hlen : c2n.length = nc * (d + 1)) {F : Faces} {set : List Nat} (hF : FacesOk d nc c2n F set) (m : R)
    {val : Nat → Nat → R → Res (Nat → R)} {val' : Nat → Nat → R → Nat → R}
    {f face : Nat} (hf : set[f]? = some face)
    (hval : ∀ c ∈ F.cellsOf face, ∀ w, val c face w = .ok (val' c face w)) (init : Nat → Nat)
    {x : V3 R} (hx0 : nc ≤ x.d0) (hx1 : x.d1 = d + 1) (hx2 : x.d2 = d) {J : V3 R}
    (hj0 : J.d0 = set.length) (hj1 : J.d1 = d - 1) (hj2 : J.d2 = d) :
    (faceAdds sqrt d Y c2n F set m val init x f J).Sat fun p =>
      (p.1.d0 = J.d0 ∧ p.1.d1 = J.d1 ∧ p.1.d2 = J.d2) ∧ p.2 = faceAddsOf sqrt d Y c2n F m val' x.e face := by
  have hfl : f < set.length := (List.getElem?_eq_some_iff.1 hf).1
  have hmem : face ∈ set := List.mem_of_getElem? hf
  unfold faceAdds
  have e1 : rd set f = .ok face := by
    rw [rd_eq hfl]
    congr 1
    exact (List.getElem?_eq_some_iff.1 hf).2
  have hup := hF.up face hmem
  rw [e1, Res.ok_bind, rd_atN (by omega), Res.ok_bind, rd_atN hup, Res.ok_bind]
  refine (forRange_inv (fun e s => (s.1.d0 = J.d0 ∧ s.1.d1 = J.d1 ∧ s.1.d2 = J.d2) ∧
    s.2 = ((List.range' (atN F.up face) (e - atN F.up face)).map (atN F.upCells)).flatMap fun cell =>
      cellAdds d Y cell (localOf d c2n F.f2n cell face)
        (val' cell face (weightForm sqrt d m fun n k => x.e cell (localOf d c2n F.f2n cell face n) k)))
    (hF.mono face hmem) ⟨⟨rfl, rfl, rfl⟩, by simp⟩ ?_).mono ?_
  · rintro e s he1 he2 ⟨⟨s0, s1, s2⟩, hs⟩
    have hcm : atN F.upCells e ∈ F.cellsOf face :=
      List.mem_map.2 ⟨e, List.mem_range'_1.2 ⟨he1, by omega⟩, rfl⟩
    have hcell := hF.cell face hmem _ hcm
    have hsub := hF.sub face hmem _ hcm
    rw [rd_atN (by have := hF.upCells face hmem; omega), Res.ok_bind]
    have hcl : (atN F.upCells e + 1) * (d + 1) ≤ c2n.length := by
      rw [hlen]; exact Nat.mul_le_mul_right _ hcell
    refine Res.Sat.bind (faceLocalNodes_ok (hF.f2n face hmem) hcl hsub init) ?_
    intro loc hloc
    refine Res.Sat.bind (surfaceJacobian_ok (f := f) (by omega) (by omega) (fun i hi => by
      rw [hloc i hi, hx1]; exact (localOf_spec (hsub i hi)).1) hx2 (by omega) (by omega) (by omega)) ?_
    rintro J' ⟨j0, j1, j2, j3⟩
    rw [surfaceWeight_ok sqrt hd m (P := fun n k => x.e (atN F.upCells e) (loc n) k) (by omega) (by omega) (by omega) j3,
      Res.ok_bind, hval _ hcm, Res.ok_bind]
    refine Res.Sat.ok ⟨⟨j0.trans s0, j1.trans s1, j2.trans s2⟩, ?_⟩
    have e3 : e + 1 - atN F.up face = (e - atN F.up face) + 1 := by omega
    rw [e3, List.range'_concat, List.map_append, List.flatMap_append, ← hs]
    rw [Nat.one_mul, Nat.add_sub_cancel' he1, List.map_singleton, List.flatMap_singleton, cellAdds_congr hloc,
      weightForm_congr sqrt hd m (Q := fun n k => x.e (atN F.upCells e) (localOf d c2n F.f2n (atN F.upCells e) face n) k)
        fun n k hn _ => by show x.e _ (loc n) k = _; rw [hloc n hn]]
  · rintro s ⟨h1, h2⟩
    exact ⟨h1, h2⟩

/-! ## Carrying out the additions -/

/-- What a list of additions adds at a place. -/
def addedAt (adds : List (Add R)) (p : Nat × Nat) : R := (adds.map fun a => if a.1 = p then a.2 else 0).sum

@[simp] theorem addedAt_nil (p : Nat × Nat) : addedAt ([] : List (Add R)) p = 0 := rfl
@[simp] theorem addedAt_cons (a : Add R) (adds : List (Add R)) (p : Nat × Nat) :
    addedAt (a :: adds) p = (if a.1 = p then a.2 else 0) + addedAt adds p := by simp [addedAt]
theorem addedAt_append (a b : List (Add R)) (p : Nat × Nat) :
    addedAt (a ++ b) p = addedAt a p + addedAt b p := by simp [addedAt]
theorem addedAt_flatMap {α : Type} (l : List α) (f : α → List (Add R)) (p : Nat × Nat) :
    addedAt (l.flatMap f) p = (l.map fun a => addedAt (f a) p).sum := by
  induction l with
  | nil => rfl
  | cons a l ih => rw [List.flatMap_cons, addedAt_append, ih, List.map_cons, List.sum_cons]

/-- All places are places of the workset. -/
def Within (adds : List (Add R)) (d0 d1 : Nat) : Prop := ∀ a ∈ adds, a.1.1 < d0 ∧ a.1.2 < d1

theorem applyAdds_ok : ∀ (adds : List (Add R)) (r : V2 R), Within adds r.d0 r.d1 →
    applyAdds r adds = .ok ⟨r.d0, r.d1, fun c i => r.e c i + addedAt adds (c, i)⟩ := by
  intro adds
  induction adds with
  | nil => intro r _; simp [applyAdds]
  | cons a adds ih =>
    intro r h
    obtain ⟨h0, h1⟩ := h a (by simp)
    unfold applyAdds
    rw [vrd2_ok h0 h1, Res.ok_bind]
    unfold vwr2
    rw [if_pos ⟨h0, h1⟩, Res.ok_bind]
    rw [ih _ (by intro b hb; exact h b (by simp [hb]))]
    congr 2
    funext c i
    rw [addedAt_cons]
    by_cases hp : a.1 = (c, i)
    · have e1 : c = a.1.1 := by rw [hp]
      have e2 : i = a.1.2 := by rw [hp]
      simp only [if_pos hp, if_pos (And.intro e1 e2)]
      rw [← e1, ← e2]
      ring
    · have : ¬ (c = a.1.1 ∧ i = a.1.2) := fun hh => hp (Prod.ext hh.1.symm hh.2.symm)
      simp only [if_neg hp, if_neg this, zero_add]

/-- The places of a face. -/
theorem faceAddsOf_within (sqrt : R → R) {d : Nat} (Y : Layout) {nc : Nat} {c2n : List Nat} {F : Faces}
    {set : List Nat} (hF : FacesOk d nc c2n F set) (m : R) (val' : Nat → Nat → R → Nat → R)
    (x : Nat → Nat → Nat → R) {face : Nat} (hmem : face ∈ set) (hY : Y.numDofs + Y.offset ≤ Y.dofsPerNode)
    {d0 d1 : Nat} (h0 : nc ≤ d0) (h1 : (d + 1) * Y.dofsPerNode ≤ d1) :
    Within (faceAddsOf sqrt d Y c2n F m val' x face) d0 d1 := by
  intro a ha
  obtain ⟨cell, hcell, ha⟩ := List.mem_flatMap.1 ha
  obtain ⟨n, hn, ha⟩ := List.mem_flatMap.1 ha
  obtain ⟨k, hk, rfl⟩ := List.mem_map.1 ha
  have hn := List.mem_range.1 hn
  have hk := List.mem_range.1 hk
  refine ⟨lt_of_lt_of_le (hF.cell face hmem cell hcell) h0, ?_⟩
  have hl := (localOf_spec (hF.sub face hmem cell hcell n hn)).1
  have : (localOf d c2n F.f2n cell face n + 1) * Y.dofsPerNode ≤ (d + 1) * Y.dofsPerNode :=
    Nat.mul_le_mul_right _ hl
  rw [Nat.succ_mul] at this
  show localOf d c2n F.f2n cell face n * Y.dofsPerNode + k + Y.offset < d1
  omega

/-- **C48**, the kernel run face by face in any order. -/
theorem surfaceIntegral_ok (sqrt : R → R) {d : Nat} (hd : d = 1 ∨ d = 2 ∨ d = 3) {Y : Layout}
    (hY : Y.numDofs + Y.offset ≤ Y.dofsPerNode) {nc : Nat} {c2n : List Nat}
    (hlen : c2n.length = nc * (d + 1)) {F : Faces} {set : List Nat} (hF : FacesOk d nc c2n F set) (m : R)
    {val : Nat → Nat → R → Res (Nat → R)} {val' : Nat → Nat → R → Nat → R}
    (hval : ∀ face ∈ set, ∀ c ∈ F.cellsOf face, ∀ w, val c face w = .ok (val' c face w))
    (init : Nat → Nat → Nat) {order : List Nat} (ho : IsSchedule order set.length)
    {x : V3 R} (hx0 : nc ≤ x.d0) (hx1 : x.d1 = d + 1) (hx2 : x.d2 = d) {r : V2 R}
    (hr0 : nc ≤ r.d0) (hr1 : (d + 1) * Y.dofsPerNode ≤ r.d1) :
    surfaceIntegral sqrt d Y c2n F set m val init order x r = .ok ⟨r.d0, r.d1, fun c i => r.e c i +
      (set.map fun face => addedAt (faceAddsOf sqrt d Y c2n F m val' x.e face) (c, i)).sum⟩ := by
  unfold surfaceIntegral
  obtain ⟨s, hs1, hs2⟩ := parFor_sched ho (s := ((⟨set.length, d - 1, d, fun _ _ _ => 0⟩ : V3 R), r))
    (body := fun f s => do
      let p ← faceAdds sqrt d Y c2n F set m val (init f) x f s.1
      let r ← applyAdds s.2 p.2
      pure (p.1, r))
    (fun D s => (s.1.d0 = set.length ∧ s.1.d1 = d - 1 ∧ s.1.d2 = d) ∧ s.2 = ⟨r.d0, r.d1, fun c i => r.e c i +
      ∑ f ∈ D, addedAt (faceAddsOf sqrt d Y c2n F m val' x.e (set.getD f 0)) (c, i)⟩)
    ⟨⟨rfl, rfl, rfl⟩, by simp⟩ (by
      rintro D f s hf hD - ⟨⟨j0, j1, j2⟩, hr⟩
      have hget : set[f]? = some (set.getD f 0) := by
        rw [List.getD_eq_getElem?_getD, List.getElem?_eq_getElem hf]; rfl
      have hmem : set.getD f 0 ∈ set := List.mem_of_getElem? hget
      obtain ⟨p, hp, ⟨p0, p1, p2⟩, hp2⟩ := faceAdds_ok sqrt hd Y hlen hF m hget (hval _ hmem) (init f) hx0 hx1 hx2 j0 j1 j2
      show ((faceAdds sqrt d Y c2n F set m val (init f) x f s.1) >>= _).Sat _
      rw [hp, Res.ok_bind, applyAdds_ok, Res.ok_bind]
      · refine Res.Sat.ok ⟨⟨by show p.1.d0 = _; omega, by show p.1.d1 = _; omega, by show p.1.d2 = _; omega⟩, ?_⟩
        show (⟨s.2.d0, s.2.d1, _⟩ : V2 R) = _
        rw [hr, hp2]
        congr 1
        funext c i
        rw [sum_insert hD]
        ring
      · rw [hr, hp2]
        exact faceAddsOf_within sqrt Y hF m val' x.e hmem hY hr0 hr1)
  rw [hs1, Res.ok_bind]
  show Res.ok s.2 = _
  rw [hs2.2]
  congr 3
  funext c i
  congr 1
  exact (sum_getD set fun face => addedAt (faceAddsOf sqrt d Y c2n F m val' x.e face) (c, i)).symm

end

end Plato.Bnd
