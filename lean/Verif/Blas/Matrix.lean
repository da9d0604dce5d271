import Verif.Blas.Vector

/-!
# Batched matrix kernels (C41)
-/

namespace Plato

open Finset

variable {K : Type}

/-! ## Rules -/

/-- A serial loop whose states are known in closed form. -/
theorem forRange_eq {σ : Type} {n : Nat} {body : Nat → σ → Res σ} (P : Nat → σ)
    (hb : ∀ k, k < n → body k (P k) = Res.ok (P (k + 1))) :
    forRange 0 n (P 0) body = Res.ok (P n) := by
  obtain ⟨s, hs, h⟩ := forRange_inv (lo := 0) (hi := n) (body := body) (fun k s => s = P k)
    (Nat.zero_le n) rfl (by
      rintro i s - hi rfl
      rw [hb i hi, Res.sat_ok])
  rw [hs, h]

/-- Replacement of the row of one cell. -/
def V2.row (y : V2 K) (i : Nat) (f : Nat → K) : V2 K :=
  { y with e := fun r => if r = i then f else y.e r }

/-- Replacement of the matrix of one cell. -/
def V3.cell (y : V3 K) (i : Nat) (f : Nat → Nat → K) : V3 K :=
  { y with e := fun r => if r = i then f else y.e r }

theorem V2.row_self (y : V2 K) (i : Nat) : y.row i (y.e i) = y := by
  unfold V2.row
  congr 1
  funext r
  split <;> simp_all

theorem V3.cell_self (y : V3 K) (i : Nat) : y.cell i (y.e i) = y := by
  unfold V3.cell
  congr 1
  funext r
  split <;> simp_all

theorem vrd2_row {y : V2 K} {i c : Nat} {f : Nat → K} (hi : i < y.d0) (hc : c < y.d1) :
    vrd2 (y.row i f) i c = Res.ok (f c) := by
  simp [vrd2, V2.row, hi, hc]

theorem vwr2_row {y : V2 K} {i c : Nat} {f : Nat → K} {a : K} (hi : i < y.d0) (hc : c < y.d1) :
    vwr2 (y.row i f) i c a = Res.ok (y.row i fun c' => if c' = c then a else f c') := by
  simp only [vwr2, V2.row, hi, hc, and_self, if_true, Res.ok.injEq, V2.mk.injEq, true_and]
  funext r c'
  by_cases h : r = i
  · simp [h]
  · simp [h]

theorem vrd3_cell {y : V3 K} {i r c : Nat} {f : Nat → Nat → K} (hi : i < y.d0) (hr : r < y.d1)
    (hc : c < y.d2) : vrd3 (y.cell i f) i r c = Res.ok (f r c) := by
  simp [vrd3, V3.cell, hi, hr, hc]

theorem vwr3_cell {y : V3 K} {i r c : Nat} {f : Nat → Nat → K} {a : K} (hi : i < y.d0)
    (hr : r < y.d1) (hc : c < y.d2) :
    vwr3 (y.cell i f) i r c a =
      Res.ok (y.cell i fun r' c' => if r' = r ∧ c' = c then a else f r' c') := by
  simp only [vwr3, V3.cell, hi, hr, hc, and_self, if_true, Res.ok.injEq, V3.mk.injEq, true_and]
  funext q r' c'
  by_cases h : q = i
  · simp [h]
  · simp [h]

theorem vrd2_ok {y : V2 K} {i c : Nat} (hi : i < y.d0) (hc : c < y.d1) :
    vrd2 y i c = Res.ok (y.e i c) := by simp [vrd2, hi, hc]

theorem vrd3_ok {y : V3 K} {i r c : Nat} (hi : i < y.d0) (hr : r < y.d1) (hc : c < y.d2) :
    vrd3 y i r c = Res.ok (y.e i r c) := by simp [vrd3, hi, hr, hc]

/-- A parallel loop over cells: iteration `i` replaces row `i` by a function of row `i`. -/
theorem parFor_rows {n : Nat} {order : List Nat} (hs : IsSchedule order n) {y : V2 K}
    {body : Nat → V2 K → Res (V2 K)} (F : Nat → (Nat → K) → Nat → K)
    (hb : ∀ i z, i < n → z.d0 = y.d0 → z.d1 = y.d1 → body i z = Res.ok (z.row i (F i (z.e i)))) :
    parFor order y body =
      Res.ok { y with e := fun r => if r < n then F r (y.e r) else y.e r } := by
  obtain ⟨s, hs', h⟩ := parFor_sched hs (s := y) (body := body) (fun D s =>
    s = { y with e := fun r => if r ∈ D then F r (y.e r) else y.e r }) (by simp) (by
      rintro D i s hi hD - rfl
      rw [hb i ⟨y.d0, y.d1, fun r => if r ∈ D then F r (y.e r) else y.e r⟩ hi rfl rfl, Res.sat_ok,
        V2.row]
      congr 1
      funext r
      by_cases hr : r = i
      · subst hr; simp [hD]
      · simp [hr])
  rw [hs', h]
  simp

theorem parFor_cells {n : Nat} {order : List Nat} (hs : IsSchedule order n) {y : V3 K}
    {body : Nat → V3 K → Res (V3 K)} (F : Nat → (Nat → Nat → K) → Nat → Nat → K)
    (hb : ∀ i z, i < n → z.d0 = y.d0 → z.d1 = y.d1 → z.d2 = y.d2 →
      body i z = Res.ok (z.cell i (F i (z.e i)))) :
    parFor order y body =
      Res.ok { y with e := fun r => if r < n then F r (y.e r) else y.e r } := by
  obtain ⟨s, hs', h⟩ := parFor_sched hs (s := y) (body := body) (fun D s =>
    s = { y with e := fun r => if r ∈ D then F r (y.e r) else y.e r }) (by simp) (by
      rintro D i s hi hD - rfl
      rw [hb i ⟨y.d0, y.d1, y.d2, fun r => if r ∈ D then F r (y.e r) else y.e r⟩ hi rfl rfl rfl,
        Res.sat_ok, V3.cell]
      congr 1
      funext r
      by_cases hr : r = i
      · subst hr; simp [hD]
      · simp [hr])
  rw [hs', h]
  simp

/-- A serial loop over the entries of a row. -/
theorem forRange_row {n i : Nat} {z : V2 K} {body : Nat → V2 K → Res (V2 K)} (g : Nat → K → K)
    (f : Nat → K)
    (hb : ∀ j f, j < n → body j (z.row i f) =
      Res.ok (z.row i fun c => if c = j then g j (f c) else f c)) :
    forRange 0 n (z.row i f) body =
      Res.ok (z.row i fun c => if c < n then g c (f c) else f c) := by
  have := forRange_eq (n := n) (body := body)
    (fun k => z.row i fun c => if c < k then g c (f c) else f c) (by
      intro k hk
      rw [hb k _ hk]
      congr 2
      funext c
      by_cases h : c = k
      · subst h; simp
      · have : c < k + 1 ↔ c < k := by omega
        simp [h, this])
  simpa using this

/-- Two nested serial loops over the entries of a matrix. -/
theorem forRange_cell {n m i : Nat} {z : V3 K} {body : Nat → Nat → V3 K → Res (V3 K)}
    (g : Nat → Nat → K → K) (f : Nat → Nat → K)
    (hb : ∀ r c f, r < n → c < m → body r c (z.cell i f) =
      Res.ok (z.cell i fun r' c' => if r' = r ∧ c' = c then g r c (f r' c') else f r' c')) :
    (forRange 0 n (z.cell i f) fun r z => forRange 0 m z fun c z => body r c z) =
      Res.ok (z.cell i fun r c => if r < n ∧ c < m then g r c (f r c) else f r c) := by
  have := forRange_eq (n := n) (body := fun r z => forRange 0 m z fun c z => body r c z)
    (fun k => z.cell i fun r c => if r < k ∧ c < m then g r c (f r c) else f r c) (by
      intro k hk
      have h2 := forRange_eq (n := m) (body := fun c z => body k c z)
        (fun l => z.cell i fun r c => if (r < k ∧ c < m) ∨ (r = k ∧ c < l) then g r c (f r c)
          else f r c) (by
          intro l hl
          rw [hb k l _ hk hl]
          congr 2
          funext r c
          by_cases h : r = k ∧ c = l
          · obtain ⟨rfl, rfl⟩ := h; simp
          · have e : (r = k ∧ c < l + 1) ↔ (r = k ∧ c < l) := by omega
            simp only [h, if_false, e])
      have e0 : (fun r c => if (r < k ∧ c < m) ∨ (r = k ∧ c < 0) then g r c (f r c) else f r c) =
          fun r c => if r < k ∧ c < m then g r c (f r c) else f r c := by
        funext r c; simp
      have e1 : (fun r c => if (r < k ∧ c < m) ∨ (r = k ∧ c < m) then g r c (f r c) else f r c) =
          fun r c => if r < k + 1 ∧ c < m then g r c (f r c) else f r c := by
        funext r c
        have : ((r < k ∧ c < m) ∨ (r = k ∧ c < m)) ↔ (r < k + 1 ∧ c < m) := by omega
        simp only [this]
      simp only [e0, e1] at h2
      exact h2)
  simpa using this

/-! ## Kernels -/

namespace blas2
variable [Field K]

/-- **C41** `fill` (two dimensional). -/
theorem C41_fill2 {order : List Nat} {a : K} {x : V2 K} (hs : IsSchedule order x.d0) :
    fill order a x = if x.size = 0 then throwErr "INPUT VECTOR IS EMPTY"
      else Res.ok { x with e := fun r c => if r < x.d0 ∧ c < x.d1 then a else x.e r c } := by
  unfold fill
  by_cases h : x.size = 0
  · simp [h]
  rw [if_neg (by omega), if_neg h,
    parFor_rows hs (fun _ f c => if c < x.d1 then a else f c) (by
      intro i z hi h0 h1
      have := forRange_row (n := z.d1) (z := z) (i := i) (body := fun j x => vwr2 x i j a)
        (fun _ _ => a) (z.e i) (fun j f hj => vwr2_row (by omega) hj)
      rw [V2.row_self] at this
      rw [this, h1])]
  congr 2
  funext r c
  by_cases hr : r < x.d0 <;> simp [hr]

/-- **C41** `scale` (two dimensional). -/
theorem C41_scale2 {order : List Nat} {a : K} {x : V2 K} (hs : IsSchedule order x.d0) :
    scale order a x = if x.size = 0 then throwErr "INPUT VECTOR IS EMPTY"
      else Res.ok { x with e := fun r c => if r < x.d0 ∧ c < x.d1 then a * x.e r c else x.e r c } := by
  unfold scale
  by_cases h : x.size = 0
  · simp [h]
  rw [if_neg (by omega), if_neg h,
    parFor_rows hs (fun _ f c => if c < x.d1 then a * f c else f c) (by
      intro i z hi h0 h1
      have := forRange_row (n := z.d1) (z := z) (i := i)
        (body := fun j x => do let v ← vrd2 x i j; vwr2 x i j (a * v))
        (fun _ v => a * v) (z.e i) (fun j f hj => by
          simp only [vrd2_row (show i < z.d0 by omega) hj, Res.ok_bind,
            vwr2_row (show i < z.d0 by omega) hj, Res.ok.injEq]
          congr 1; funext c; split <;> simp_all)
      rw [V2.row_self] at this
      rw [this, h1])]
  congr 2
  funext r c
  by_cases hr : r < x.d0 <;> simp [hr]

/-- **C41** `update` (two dimensional): `alpha*X + beta*Y`, or an exception. -/
theorem C41_update2 {order : List Nat} {a b : K} {x y : V2 K} (hs : IsSchedule order x.d0) :
    update order a x b y = if x.d0 ≠ y.d0 then throwErr "DIMENSION MISMATCH. DIM(0)"
      else if x.d1 ≠ y.d1 then throwErr "DIMENSION MISMATCH. DIM(1)"
      else Res.ok { y with
      e := fun r c => if r < y.d0 ∧ c < y.d1 then a * x.e r c + b * y.e r c else y.e r c } := by
  unfold update
  by_cases h0 : x.d0 = y.d0
  swap
  · simp [h0]
  by_cases h1 : x.d1 = y.d1
  swap
  · simp [h0, h1]
  simp only [h0, h1, ne_eq, not_true_eq_false, if_false]
  rw [h0] at hs
  rw [parFor_rows hs (fun i f c => if c < y.d1 then a * x.e i c + b * f c else f c) (by
      intro i z hi e0 e1
      have := forRange_row (n := y.d1) (z := z) (i := i)
        (body := fun j y => do
          let v ← vrd2 x i j
          let w ← vrd2 y i j
          vwr2 y i j (a * v + b * w))
        (fun c v => a * x.e i c + b * v) (z.e i) (fun j f hj => by
          simp only [vrd2_ok (show i < x.d0 by omega) (show j < x.d1 by omega),
            vrd2_row (show i < z.d0 by omega) (show j < z.d1 by omega), Res.ok_bind,
            vwr2_row (show i < z.d0 by omega) (show j < z.d1 by omega), Res.ok.injEq]
          congr 1; funext c; split <;> simp_all)
      rw [V2.row_self] at this
      rw [this])]
  congr 2
  funext r c
  by_cases hr : r < y.d0 <;> simp [hr]

theorem mtvCell_eq {alpha beta : K} {A : V3 K} {x y : V2 K} {i : Nat} (h0 : i < A.d0)
    (h1 : A.d0 = x.d0) (h2 : A.d0 = y.d0) (hx : A.d2 ≤ x.d1) (hy : A.d1 ≤ y.d1) :
    mtvCell alpha A x beta i y = Res.ok (y.row i fun r =>
      if r < A.d1 then beta * y.e i r + alpha * ∑ c ∈ range A.d2, A.e i r c * x.e i c
      else y.e i r) := by
  unfold mtvCell
  have e1 := forRange_row (n := A.d1) (z := y) (i := i)
    (body := fun r y => do let w ← vrd2 y i r; vwr2 y i r (beta * w))
    (fun _ v => beta * v) (y.e i) (fun j f hj => by
      simp only [vrd2_row (show i < y.d0 by omega) (show j < y.d1 by omega), Res.ok_bind,
        vwr2_row (show i < y.d0 by omega) (show j < y.d1 by omega), Res.ok.injEq]
      congr 1; funext c; split <;> simp_all)
  rw [V2.row_self] at e1
  rw [e1, Res.ok_bind]
  have e2 := forRange_row (n := A.d1) (z := y) (i := i)
    (body := fun r y => forRange 0 A.d2 y fun c y => do
      let w ← vrd2 y i r
      let a ← vrd3 A i r c
      let v ← vrd2 x i c
      vwr2 y i r (w + alpha * a * v))
    (fun r v => v + alpha * ∑ c ∈ range A.d2, A.e i r c * x.e i c)
    (fun c => if c < A.d1 then beta * y.e i c else y.e i c) (fun r f hr => by
      have := forRange_eq (n := A.d2) (body := fun c y => do
          let w ← vrd2 y i r
          let a ← vrd3 A i r c
          let v ← vrd2 x i c
          vwr2 y i r (w + alpha * a * v))
        (fun k => y.row i fun r' =>
          if r' = r then f r' + alpha * ∑ c ∈ range k, A.e i r c * x.e i c else f r') (by
          intro k hk
          simp only [vrd2_row (show i < y.d0 by omega) (show r < y.d1 by omega), Res.ok_bind,
            vrd3_ok h0 hr hk, vrd2_ok (show i < x.d0 by omega) (show k < x.d1 by omega),
            vwr2_row (show i < y.d0 by omega) (show r < y.d1 by omega), Res.ok.injEq]
          congr 1; funext c
          split
          · subst_vars; simp only [if_true]; rw [sum_range_succ]; ring
          · rfl)
      simpa using this)
  rw [e2]
  congr 2
  funext r
  split <;> simp_all

theorem mtvTCell_eq {alpha beta : K} {A : V3 K} {x y : V2 K} {i : Nat} (h0 : i < A.d0)
    (h1 : A.d0 = x.d0) (h2 : A.d0 = y.d0) (hx : A.d1 ≤ x.d1) (hy : A.d2 ≤ y.d1) :
    mtvTCell alpha A x beta i y = Res.ok (y.row i fun c =>
      if c < A.d2 then beta * y.e i c + alpha * ∑ r ∈ range A.d1, A.e i r c * x.e i r
      else y.e i c) := by
  unfold mtvTCell
  have e1 := forRange_row (n := A.d2) (z := y) (i := i)
    (body := fun r y => do let w ← vrd2 y i r; vwr2 y i r (beta * w))
    (fun _ v => beta * v) (y.e i) (fun j f hj => by
      simp only [vrd2_row (show i < y.d0 by omega) (show j < y.d1 by omega), Res.ok_bind,
        vwr2_row (show i < y.d0 by omega) (show j < y.d1 by omega), Res.ok.injEq]
      congr 1; funext c; split <;> simp_all)
  rw [V2.row_self] at e1
  rw [e1, Res.ok_bind]
  have e2 := forRange_eq (n := A.d1) (body := fun r y => forRange 0 A.d2 y fun c y => do
      let w ← vrd2 y i c
      let a ← vrd3 A i r c
      let v ← vrd2 x i r
      vwr2 y i c (w + alpha * a * v))
    (fun k => y.row i fun c => if c < A.d2 then
        beta * y.e i c + alpha * ∑ r ∈ range k, A.e i r c * x.e i r else y.e i c) (fun r hr => by
      have := forRange_row (n := A.d2) (z := y) (i := i) (body := fun c y => do
          let w ← vrd2 y i c
          let a ← vrd3 A i r c
          let v ← vrd2 x i r
          vwr2 y i c (w + alpha * a * v))
        (fun c v => v + alpha * A.e i r c * x.e i r)
        (fun c => if c < A.d2 then
          beta * y.e i c + alpha * ∑ r ∈ range r, A.e i r c * x.e i r else y.e i c)
        (fun c f hc => by
          simp only [vrd2_row (show i < y.d0 by omega) (show c < y.d1 by omega), Res.ok_bind,
            vrd3_ok h0 hr hc, vrd2_ok (show i < x.d0 by omega) (show r < x.d1 by omega),
            vwr2_row (show i < y.d0 by omega) (show c < y.d1 by omega), Res.ok.injEq]
          congr 1; funext c'; split <;> simp_all)
      refine this.trans ?_
      congr 2
      funext c
      split
      · rw [sum_range_succ]; ring
      · rfl)
  simpa using e2

/-- What `matrix_times_vector` checks. -/
structure MtvChecked (trans : Char) (A : V3 K) (x y : V2 K) : Prop where
  hA : 0 < A.size
  hx : 0 < x.size
  hy : 0 < y.size
  cx : A.d0 = x.d0
  cy : A.d0 = y.d0
  tr : trans = 'N' ∨ trans = 'n' ∨ trans = 'T' ∨ trans = 't'

/-- **C41** `matrix_times_vector`, no transpose, vectors at least as long as the matrix needs. -/
theorem C41_mtv_partial {order : List Nat} {trans : Char} {alpha beta : K} {A : V3 K} {x y : V2 K}
    (hs : IsSchedule order A.d0) (hc : MtvChecked trans A x y) (ht : trans = 'N' ∨ trans = 'n')
    (hx : A.d2 ≤ x.d1) (hy : A.d1 ≤ y.d1) :
    matrixTimesVector order trans alpha A x beta y = Res.ok { y with
      e := fun i r => if i < A.d0 ∧ r < A.d1 then
        beta * y.e i r + alpha * ∑ c ∈ range A.d2, A.e i r c * x.e i c
      else y.e i r } := by
  obtain ⟨a1, a2, a3, a4, a5, a6⟩ := hc
  unfold matrixTimesVector
  rw [if_neg (by omega), if_neg (by omega), if_neg (by omega), if_neg (by omega), if_neg (by omega),
    if_neg (not_not.2 a6), if_pos ht]
  rw [parFor_rows hs (fun i f r => if r < A.d1 then
      beta * f r + alpha * ∑ c ∈ range A.d2, A.e i r c * x.e i c else f r) (by
    intro i z hi e0 e1
    exact mtvCell_eq hi a4 (by omega) hx (by omega))]
  congr 2
  funext i r
  by_cases hi : i < A.d0 <;> simp [hi]

/-- **C41** `matrix_times_vector`, transpose. -/
theorem C41_mtvT_partial {order : List Nat} {trans : Char} {alpha beta : K} {A : V3 K} {x y : V2 K}
    (hs : IsSchedule order A.d0) (hc : MtvChecked trans A x y) (ht : trans = 'T' ∨ trans = 't')
    (hx : A.d1 ≤ x.d1) (hy : A.d2 ≤ y.d1) :
    matrixTimesVector order trans alpha A x beta y = Res.ok { y with
      e := fun i c => if i < A.d0 ∧ c < A.d2 then
        beta * y.e i c + alpha * ∑ r ∈ range A.d1, A.e i r c * x.e i r
      else y.e i c } := by
  obtain ⟨a1, a2, a3, a4, a5, a6⟩ := hc
  unfold matrixTimesVector
  rw [if_neg (by omega), if_neg (by omega), if_neg (by omega), if_neg (by omega), if_neg (by omega),
    if_neg (not_not.2 a6), if_neg (by rcases ht with rfl | rfl <;> decide)]
  rw [parFor_rows hs (fun i f c => if c < A.d2 then
      beta * f c + alpha * ∑ r ∈ range A.d1, A.e i r c * x.e i r else f c) (by
    intro i z hi e0 e1
    exact mtvTCell_eq hi a4 (by omega) hx (by omega))]
  congr 2
  funext i r
  by_cases hi : i < A.d0 <;> simp [hi]

/-- **C41** arguments that fail one of the checks are rejected. -/
theorem C41_mtv_rejected {order : List Nat} {trans : Char} {alpha beta : K} {A : V3 K} {x y : V2 K}
    (hc : ¬ MtvChecked trans A x y) :
    ∃ m, matrixTimesVector order trans alpha A x beta y = throwErr m := by
  unfold matrixTimesVector
  split_ifs with h1 h2 h3 h4 h5 h6 h7
  any_goals exact ⟨_, rfl⟩
  all_goals
    exact absurd ⟨by omega, by omega, by omega, by omega, by omega, h6⟩ hc

/-- **C41** the part "malformed extents are rejected" is false for `matrix_times_vector`: the
lengths of the vectors are not compared with the shape of the matrix, and the kernel then reads
outside a view. -/
theorem C41_mtv_extents_false :
    ∃ (A : V3 ℚ) (x y : V2 ℚ), MtvChecked 'N' A x y ∧
      matrixTimesVector [0] 'N' 1 A x 1 y = Res.ub :=
  ⟨⟨1, 1, 2, fun _ _ _ => 1⟩, ⟨1, 1, fun _ _ => 1⟩, ⟨1, 1, fun _ _ => 1⟩,
    ⟨by decide, by decide, by decide, rfl, rfl, Or.inl rfl⟩, by
      simp [matrixTimesVector, V3.size, V2.size, parFor, mtvCell, forRange, forUp, vrd2, vwr2,
        vrd3]⟩

/-- The hypotheses of `C41_mtv_partial` and `C41_mtvT_partial` are met by one 2×3 matrix in each of two cells. -/
example : MtvChecked 'N' (⟨2, 2, 3, fun i r c => i + r + c⟩ : V3 ℚ) ⟨2, 3, fun _ _ => 1⟩
    ⟨2, 2, fun _ _ => 0⟩ := ⟨by decide, by decide, by decide, rfl, rfl, Or.inl rfl⟩

/-- **C41** `axpy` (two dimensional): `Y(i, stride*j+offset) := alpha*Y(i, stride*j+offset) + X(i,j)`
(the scalar multiplies the output), provided the addressed entries exist. -/
theorem C41_axpy2 {order : List Nat} {stride offset : Nat} {a : K} {x y : V2 K}
    (hs : IsSchedule order x.d0) (hx : 0 < x.size) (hd : y.d0 = x.d0) (hst : 0 < stride)
    (hext : stride * (x.d1 - 1) + offset < y.d1) :
    (axpy order stride offset a x y).Sat fun z => z.d0 = y.d0 ∧ z.d1 = y.d1 ∧
      (∀ i j, i < x.d0 → j < x.d1 →
        z.e i (stride * j + offset) = a * y.e i (stride * j + offset) + x.e i j) ∧
      ∀ i o, i < x.d0 → (∀ j, j < x.d1 → o ≠ stride * j + offset) → z.e i o = y.e i o := by
  have hx1 : 0 < x.d1 := Nat.pos_of_mul_pos_left hx
  have hx0 : 0 < x.d0 := Nat.pos_of_mul_pos_right hx
  unfold axpy
  rw [if_neg (by
    have : 0 < y.size := Nat.mul_pos (by omega) (by omega)
    omega), if_neg (by omega), if_neg (by omega)]
  have hinj : ∀ j k, stride * j + offset = stride * k + offset ↔ j = k := by
    intro j k
    constructor
    · intro h
      exact Nat.eq_of_mul_eq_mul_left hst (by omega)
    · rintro rfl; rfl
  rw [parFor_rows hs (fun i f o => if h : ∃ j, j < x.d1 ∧ o = stride * j + offset then
      a * f o + x.e i h.choose else f o) (by
    intro i z hi e0 e1
    have := forRange_eq (n := x.d1) (body := fun j y => do
        let o := stride * j + offset
        let w ← vrd2 y i o
        let v ← vrd2 x i j
        vwr2 y i o (a * w + v))
      (fun k => z.row i fun o => if h : ∃ j, j < k ∧ o = stride * j + offset then
        a * z.e i o + x.e i h.choose else z.e i o) (by
        intro k hk
        have hk' : stride * k ≤ stride * (x.d1 - 1) := Nat.mul_le_mul_left _ (by omega)
        simp only [vrd2_row (show i < z.d0 by omega) (show stride * k + offset < z.d1 by omega),
          vrd2_ok hi hk, Res.ok_bind,
          vwr2_row (show i < z.d0 by omega) (show stride * k + offset < z.d1 by omega),
          Res.ok.injEq]
        congr 1
        funext o
        by_cases ho : o = stride * k + offset
        · subst ho
          have h1 : ¬ ∃ j, j < k ∧ stride * k + offset = stride * j + offset := by
            rintro ⟨j, hj, e⟩; rw [hinj] at e; omega
          have h2 : ∃ j, j < k + 1 ∧ stride * k + offset = stride * j + offset := ⟨k, by omega, rfl⟩
          rw [if_pos rfl, dif_neg h1, dif_pos h2, ← (hinj _ _).1 h2.choose_spec.2]
        · have : ∀ j, (j < k + 1 ∧ o = stride * j + offset) ↔ (j < k ∧ o = stride * j + offset) := by
            intro j
            constructor
            · rintro ⟨h1, rfl⟩
              refine ⟨?_, rfl⟩
              rcases Nat.lt_succ_iff_lt_or_eq.1 h1 with h | rfl
              · exact h
              · exact absurd rfl ho
            · rintro ⟨h1, h2⟩; exact ⟨by omega, h2⟩
          simp only [ho, if_false, this])
    have e : z.row i (fun o => if h : ∃ j, j < 0 ∧ o = stride * j + offset then
        a * z.e i o + x.e i h.choose else z.e i o) = z := by
      simp [V2.row_self]
    exact (congrArg (fun s => forRange 0 x.d1 s _) e).symm.trans this), Res.sat_ok]
  refine ⟨rfl, rfl, fun i j hi hj => ?_, fun i o hi ho => ?_⟩
  · have h2 : ∃ k, k < x.d1 ∧ stride * j + offset = stride * k + offset := ⟨j, hj, rfl⟩
    simp only [hi, if_true, dif_pos h2]
    rw [← (hinj _ _).1 h2.choose_spec.2]
  · have h2 : ¬ ∃ k, k < x.d1 ∧ o = stride * k + offset := by
      rintro ⟨k, hk, e⟩; exact ho k hk e
    simp only [hi, if_true, dif_neg h2]

end blas2

namespace blas3
variable [Field K]

/-- **C41** `identity`. -/
theorem C41_identity {order : List Nat} {nr nc nC : Nat} {I : V3 K} (hs : IsSchedule order nC)
    (hsz : 0 < I.size) (hC : I.d0 = nC) (hr : nr ≤ I.d1) (hc : nc ≤ I.d2) :
    identity order nr nc nC I = Res.ok { I with
      e := fun i r c => if i < nC then (if r < nr ∧ c < nc then (if r = c then 1 else 0) else I.e i r c)
      else I.e i r c } := by
  unfold identity
  rw [if_neg (by omega), if_neg (by omega),
    parFor_cells hs (fun i f r c => if r < nr ∧ c < nc then (if r = c then 1 else 0) else f r c) (by
      intro i z hi e0 e1 e2
      have := forRange_cell (n := nr) (m := nc) (i := i) (z := z)
        (body := fun r c I => vwr3 I i r c (if r = c then 1 else 0))
        (fun r c _ => if r = c then 1 else 0) (z.e i)
        (fun r c f hr hc => vwr3_cell (by omega) (by omega) (by omega))
      rw [V3.cell_self] at this
      exact this)]
  congr 2
  funext i r c
  by_cases hi : i < nC <;> simp [hi]

/-- **C41** `fill` (three dimensional). -/
theorem C41_fill3 {order : List Nat} {nr nc nC : Nat} {a : K} {X : V3 K} (hs : IsSchedule order nC)
    (hsz : 0 < X.size) (hpos : 0 < nC) (hC : nC ≤ X.d0) (hr : nr ≤ X.d1) (hc : nc ≤ X.d2) :
    fill order nr nc nC a X = Res.ok { X with
      e := fun i r c => if i < nC ∧ r < nr ∧ c < nc then a else X.e i r c } := by
  unfold fill
  rw [if_neg (by omega), if_neg (by omega),
    parFor_cells hs (fun i f r c => if r < nr ∧ c < nc then a else f r c) (by
      intro i z hi e0 e1 e2
      have := forRange_cell (n := nr) (m := nc) (i := i) (z := z)
        (body := fun r c I => vwr3 I i r c a) (fun r c _ => a) (z.e i)
        (fun r c f hr hc => vwr3_cell (by omega) (by omega) (by omega))
      rw [V3.cell_self] at this
      exact this)]
  congr 2
  funext i r c
  by_cases hi : i < nC <;> simp [hi]

/-- **C41** `update` (three dimensional): `alpha*A + beta*B`. -/
theorem C41_update3_partial {order : List Nat} {nC : Nat} {alpha beta : K} {A B : V3 K}
    (hs : IsSchedule order nC) (hA : 0 < A.size) (hB : 0 < B.size) (h1 : A.d1 = B.d1)
    (h2 : A.d2 = B.d2) (hpos : 0 < nC) (hCA : nC ≤ A.d0) (hCB : nC ≤ B.d0) :
    update order nC alpha A beta B = Res.ok { B with
      e := fun i r c => if i < nC ∧ r < B.d1 ∧ c < B.d2 then alpha * A.e i r c + beta * B.e i r c
      else B.e i r c } := by
  unfold update
  rw [if_neg (by omega), if_neg (by omega), if_neg (by omega), if_neg (by omega), if_neg (by omega),
    parFor_cells hs (fun i f r c => if r < B.d1 ∧ c < B.d2 then alpha * A.e i r c + beta * f r c
      else f r c) (by
      intro i z hi e0 e1 e2
      have := forRange_cell (n := A.d1) (m := A.d2) (i := i) (z := z)
        (body := fun r c B => do
          let a ← vrd3 A i r c
          let b ← vrd3 B i r c
          vwr3 B i r c (alpha * a + beta * b)) (fun r c v => alpha * A.e i r c + beta * v) (z.e i)
        (fun r c f hr hc => by
          simp only [vrd3_ok (show i < A.d0 by omega) hr hc, Res.ok_bind,
            vrd3_cell (show i < z.d0 by omega) (show r < z.d1 by omega) (show c < z.d2 by omega),
            vwr3_cell (show i < z.d0 by omega) (show r < z.d1 by omega) (show c < z.d2 by omega),
            Res.ok.injEq]
          congr 1; funext r' c'; split <;> simp_all)
      rw [V3.cell_self] at this
      rw [this, h1, h2])]
  congr 2
  funext i r c
  by_cases hi : i < nC <;> simp [hi]

/-- **C41** the part "malformed extents are rejected" is false for `update` in three dimensions: the
number of cells is not compared with the extents. -/
theorem C41_update3_extents_false :
    ∃ (A B : V3 ℚ), 0 < A.size ∧ 0 < B.size ∧ A.d1 = B.d1 ∧ A.d2 = B.d2 ∧
      update [0, 1] 2 1 A 1 B = Res.ub :=
  ⟨⟨1, 1, 1, fun _ _ _ => 1⟩, ⟨2, 1, 1, fun _ _ _ => 1⟩, by decide, by decide, rfl, rfl, by
    simp [update, V3.size, parFor, forRange, forUp, vrd3, vwr3]⟩

/-- What `multiply` checks. -/
structure MultChecked (numCells : Nat) (A B C : V3 K) : Prop where
  hA : 0 < A.size
  hB : 0 < B.size
  hC : 0 < C.size
  inner : A.d2 = B.d1
  rows : A.d1 = C.d1
  cols : B.d2 = C.d2
  cA : A.d0 = numCells
  cB : B.d0 = numCells
  cC : C.d0 = numCells

theorem multiplyCell_eq {nC i : Nat} {alpha beta : K} {A B C : V3 K} (hi : i < nC)
    (hc : MultChecked nC A B C) :
    multiplyCell alpha A B beta i C = Res.ok (C.cell i fun r c => if r < C.d1 ∧ c < C.d2 then
      beta * C.e i r c + alpha * ∑ k ∈ range A.d2, A.e i r k * B.e i k c else C.e i r c) := by
  obtain ⟨-, -, -, a1, a2, a3, a4, a5, a6⟩ := hc
  simp only [multiplyCell]
  have e1 := forRange_cell (n := C.d1) (m := C.d2) (i := i) (z := C)
    (body := fun r c C => do let w ← vrd3 C i r c; vwr3 C i r c (beta * w))
    (fun _ _ v => beta * v) (C.e i) (fun r c f hr hc => by
      simp only [vrd3_cell (show i < C.d0 by omega) hr hc, Res.ok_bind,
        vwr3_cell (show i < C.d0 by omega) hr hc, Res.ok.injEq]
      congr 1; funext r' c'; split <;> simp_all)
  rw [V3.cell_self] at e1
  rw [e1, Res.ok_bind]
  have e2 := forRange_cell (n := C.d1) (m := C.d2) (i := i) (z := C)
    (body := fun r c C => do
      let v ← forRange 0 A.d2 (0 : K) fun k v => do
        let a ← vrd3 A i r k
        let b ← vrd3 B i k c
        pure (v + alpha * a * b)
      let w ← vrd3 C i r c
      vwr3 C i r c (w + v))
    (fun r c v => v + alpha * ∑ k ∈ range A.d2, A.e i r k * B.e i k c)
    (fun r c => if r < C.d1 ∧ c < C.d2 then beta * C.e i r c else C.e i r c)
    (fun r c f hr hc => by
      have e3 := forRange_eq (n := A.d2) (body := fun k (v : K) => do
          let a ← vrd3 A i r k
          let b ← vrd3 B i k c
          pure (v + alpha * a * b))
        (fun l => alpha * ∑ k ∈ range l, A.e i r k * B.e i k c) (fun l hl => by
          simp only [vrd3_ok (show i < A.d0 by omega) (show r < A.d1 by omega) hl,
            vrd3_ok (show i < B.d0 by omega) (show l < B.d1 by omega) (show c < B.d2 by omega),
            Res.ok_bind]
          rw [sum_range_succ]
          show Res.ok _ = Res.ok _
          congr 1; ring)
      simp only [range_zero, sum_empty, mul_zero] at e3
      simp only [e3, Res.ok_bind, vrd3_cell (show i < C.d0 by omega) hr hc,
        vwr3_cell (show i < C.d0 by omega) hr hc, Res.ok.injEq]
      congr 1; funext r' c'; split <;> simp_all)
  rw [e2]
  congr 2
  funext r c
  split <;> simp_all

/-- **C41** `multiply`: `beta*C + alpha*A*B` in every cell, or an exception. -/
theorem C41_multiply {order : List Nat} {nC : Nat} {alpha beta : K} {A B C : V3 K}
    (hs : IsSchedule order nC) (hc : MultChecked nC A B C) :
    multiply order nC alpha A B beta C = Res.ok { C with
      e := fun i r c => if i < nC ∧ r < C.d1 ∧ c < C.d2 then
        beta * C.e i r c + alpha * ∑ k ∈ range A.d2, A.e i r k * B.e i k c else C.e i r c } := by
  have hc' := hc
  obtain ⟨h1, h2, h3, a1, a2, a3, a4, a5, a6⟩ := hc'
  unfold multiply
  rw [if_neg (by omega), if_neg (by omega), if_neg (by omega), if_neg (by omega), if_neg (by omega),
    if_neg (by omega), if_neg (by omega), if_neg (by omega), if_neg (by omega),
    parFor_cells hs (fun i f r c => if r < C.d1 ∧ c < C.d2 then
      beta * f r c + alpha * ∑ k ∈ range A.d2, A.e i r k * B.e i k c else f r c) (by
      intro i z hi e0 e1 e2
      have := multiplyCell_eq (alpha := alpha) (beta := beta) (A := A) (B := B) (C := z) hi
        ⟨h1, h2, by simpa [V3.size, e0, e1, e2] using h3, a1, by omega, by omega, a4, a5, by omega⟩
      rw [this, e1, e2])]
  congr 2
  funext i r c
  by_cases hi : i < nC <;> simp [hi]

/-- **C41** arguments that fail one of the checks are rejected. -/
theorem C41_multiply_rejected {order : List Nat} {nC : Nat} {alpha beta : K} {A B C : V3 K}
    (hc : ¬ MultChecked nC A B C) : ∃ m, multiply order nC alpha A B beta C = throwErr m := by
  unfold multiply
  split_ifs
  any_goals exact ⟨_, rfl⟩
  exact absurd ⟨by omega, by omega, by omega, by omega, by omega, by omega, by omega, by omega,
    by omega⟩ hc

example : MultChecked 2 (⟨2, 2, 3, fun i r c => i + r + c⟩ : V3 ℚ) ⟨2, 3, 4, fun _ _ _ => 1⟩
    ⟨2, 2, 4, fun _ _ _ => 0⟩ :=
  ⟨by decide, by decide, by decide, rfl, rfl, rfl, rfl, rfl, rfl⟩

end blas3

end Plato
