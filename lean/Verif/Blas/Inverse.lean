import Verif.Blas.Matrix
import Mathlib.LinearAlgebra.Matrix.ToLin
import Mathlib.LinearAlgebra.FiniteDimensional.Lemmas
import Mathlib.LinearAlgebra.Dimension.Constructions

/-!
# C66: `blas3::inverse`

Modelled: `/repo/src/BLAS3.hpp:80-109`.  The kernels `SerialLU` and `SerialTrsm` of KokkosBatched, which are not
part of the repository, are modelled by their unblocked algorithms: factors without exchange of rows, forward and
backward substitution.  A matrix of a cell is a function of row and column.  A division by zero, after which entries
are not finite numbers, is the outcome `ub`.
-/

namespace Plato.blas3
open Finset

variable {K : Type} [Field K] [DecidableEq K]

/-- Step `p` of `SerialLU`: the column below the pivot is divided by the pivot, the rest is updated. -/
def luStep (n p : Nat) (a : Nat → Nat → K) : Res (Nat → Nat → K) :=
  if p + 1 < n ∧ a p p = 0 then .ub
  else .ok fun i j => if p < i ∧ i < n then
      if j = p then a i p / a p p else if p < j ∧ j < n then a i j - a i p / a p p * a p j else a i j
    else a i j

/-- `SerialLU<Algo::LU::Blocked>::invoke`, BLAS3.hpp:105. -/
def lu (n : Nat) (a : Nat → Nat → K) : Res (Nat → Nat → K) := forRange 0 n a (luStep n)

/-- `SerialTrsm<Side::Left, Uplo::Lower, Trans::NoTranspose, Diag::Unit>::invoke`, BLAS3.hpp:106. -/
def trsmLower (n : Nat) (a b : Nat → Nat → K) : Res (Nat → Nat → K) :=
  forRange 0 n b fun p b => .ok fun i j => if p < i ∧ i < n then b i j - a i p * b p j else b i j

/-- `SerialTrsm<Side::Left, Uplo::Upper, Trans::NoTranspose, Diag::NonUnit>::invoke`, BLAS3.hpp:107; the rows are
treated from the last one to the first one. -/
def trsmUpper (n : Nat) (a b : Nat → Nat → K) : Res (Nat → Nat → K) :=
  forRange 0 n b fun k b =>
    let p := n - 1 - k
    if a p p = 0 then .ub
    else .ok fun i j => if i = p then b p j / a p p else if i < p then b i j - a i p * (b p j / a p p) else b i j

/-- Body of the loop, BLAS3.hpp:99-108: factors and inverse of a cell.  `subview` at a cell outside the arrays is
undefined behaviour; shapes other than square are not modelled and given the same outcome. -/
def inverseCell (cell : Nat) (s : V3 K × V3 K) : Res (V3 K × V3 K) :=
  if cell < s.1.d0 ∧ cell < s.2.d0 ∧ s.1.d2 = s.1.d1 ∧ s.2.d1 = s.1.d1 ∧ s.2.d2 = s.1.d1 then do
    let a ← lu s.1.d1 (s.1.e cell)
    let b ← trsmLower s.1.d1 a (s.2.e cell)
    let b ← trsmUpper s.1.d1 a b
    pure (s.1.cell cell a, s.2.cell cell b)
  else .ub

/-- `inverse`, BLAS3.hpp:80-109, with `NumRowsPerCell` and `NumColumnsPerCell` equal to `n`; the first result is what `aA` holds afterwards. -/
def inverse (order orderI : List Nat) (n numCells : Nat) (A I : V3 K) : Res (V3 K × V3 K) :=
  if A.size ≤ 0 then throwErr "\nInput 3D array, i.e. matrix workset, size is zero.\n"
  else if I.size ≤ 0 then throwErr "\nOutput 3D array, i.e. matrix workset, size is zero.\n"
  else if A.size ≠ I.size then throwErr "\nInput and output views dimensions are different, i.e. Input.size != Output.size.\n"
  else do
    let I ← identity orderI n n numCells I
    parFor order (A, I) inverseCell

/-! ## Factors -/

/-- Unit lower triangle of `a`. -/
def lower (a : Nat → Nat → K) (i q : Nat) : K := if q < i then a i q else if q = i then 1 else 0

/-- Upper triangle of `a`. -/
def upper (a : Nat → Nat → K) (q j : Nat) : K := if q ≤ j then a q j else 0

/-- The first `m` rows and columns of `a` have no nonzero vector in the kernel. -/
def Leading (a : Nat → Nat → K) (m : Nat) : Prop :=
  ∀ v : Nat → K, (∀ i, i < m → ∑ j ∈ range m, a i j * v j = 0) → ∀ j, j < m → v j = 0

/-- What holds after `p` steps. -/
structure LuInv (n : Nat) (a0 : Nat → Nat → K) (p : Nat) (a : Nat → Nat → K) : Prop where
  eq : ∀ i j, i < n → j < n → a0 i j = ∑ q ∈ range p, lower a i q * upper a q j + if p ≤ i ∧ p ≤ j then a i j else 0
  piv : ∀ q, q < p → q + 1 < n → a q q ≠ 0

theorem luInv_pivot {n p : Nat} {a0 a : Nat → Nat → K} (h : LuInv n a0 p a) (hp : p < n)
    (hL : Leading a0 (p + 1)) : a p p ≠ 0 := by
  intro h0
  -- a nonzero vector in the kernel of the first `p` rows of the upper triangle
  let f : (Fin (p + 1) → K) →ₗ[K] (Fin p → K) :=
    Matrix.toLin' (Matrix.of fun (q : Fin p) (j : Fin (p + 1)) => upper a q j)
  have hk : LinearMap.ker f ≠ ⊥ := LinearMap.ker_ne_bot_of_finrank_lt (by simp)
  obtain ⟨v, hv, hne⟩ := (Submodule.ne_bot_iff _).1 hk
  have hv' : ∀ q : Fin p, ∑ j : Fin (p + 1), upper a q j * v j = 0 := fun q => by
    have := congrFun (LinearMap.mem_ker.1 hv) q
    simpa [f, Matrix.toLin'_apply, Matrix.mulVec, dotProduct] using this
  let w : Nat → K := fun j => if hj : j < p + 1 then v ⟨j, hj⟩ else 0
  have hw : ∀ j : Fin (p + 1), w j = v j := fun j => by
    show (if hj : (j : Nat) < p + 1 then v ⟨j, hj⟩ else 0) = v j
    rw [dif_pos j.2]
  refine hne (funext fun j => ?_)
  rw [← hw j]
  refine hL w (fun i hi => ?_) j j.2
  have e : ∀ j ∈ range (p + 1), a0 i j * w j = ∑ q ∈ range p, lower a i q * (upper a q j * w j) := by
    intro j hj
    have hj := mem_range.1 hj
    rw [h.eq i j (by omega) (by omega)]
    have : (if p ≤ i ∧ p ≤ j then a i j else 0) = 0 := by
      split
      · rename_i hh
        rw [show i = p by omega, show j = p by omega, h0]
      · rfl
    rw [this, add_zero, sum_mul]
    exact sum_congr rfl fun q _ => by ring
  rw [sum_congr rfl e, sum_comm]
  refine sum_eq_zero fun q hq => ?_
  rw [← mul_sum, sum_range]
  have := hv' ⟨q, mem_range.1 hq⟩
  rw [sum_congr rfl fun j _ => by rw [hw j], this, mul_zero]

theorem luInv_step {n p : Nat} {a0 a : Nat → Nat → K} (h : LuInv n a0 p a) (hp : p < n)
    (hne : p + 1 < n → a p p ≠ 0) : (luStep n p a).Sat (LuInv n a0 (p + 1)) := by
  unfold luStep
  rw [if_neg (fun hh => hne hh.1 hh.2), Res.sat_ok]
  have hlow : ∀ i q, q < p → lower (fun i j => if p < i ∧ i < n then
      if j = p then a i p / a p p else if p < j ∧ j < n then a i j - a i p / a p p * a p j else a i j
      else a i j) i q = lower a i q := by
    intro i q hq
    unfold lower
    have h1 : q ≠ p := by omega
    have h2 : ¬ p < q := by omega
    simp [h1, h2]
  have hup : ∀ q j, q ≤ p → upper (fun i j => if p < i ∧ i < n then
      if j = p then a i p / a p p else if p < j ∧ j < n then a i j - a i p / a p p * a p j else a i j
      else a i j) q j = upper a q j := by
    intro q j hq
    unfold upper
    have h1 : ¬ p < q := by omega
    simp [h1]
  refine ⟨fun i j hi hj => ?_, fun q hq hq' => ?_⟩
  · rw [h.eq i j hi hj, sum_range_succ, add_assoc]
    congr 1
    · exact sum_congr rfl fun q hq => by rw [hlow i q (mem_range.1 hq), hup q j (mem_range.1 hq).le]
    rw [hup p j le_rfl]
    unfold lower upper
    rcases Nat.lt_trichotomy i p with hip | hip | hip
    · have h1 : ¬ p < i := by omega
      have h2 : ¬ p = i := by omega
      have h3 : ¬ p ≤ i := by omega
      have h4 : ¬ p + 1 ≤ i := by omega
      simp [h1, h2, h3, h4]
    · subst hip
      by_cases hij : i ≤ j <;> simp [hij]
    · have hpv := hne (by omega)
      rcases Nat.lt_trichotomy j p with hjp | hjp | hjp
      · have h1 : ¬ p ≤ j := by omega
        have h2 : ¬ p + 1 ≤ j := by omega
        simp [h1, h2]
      · subst hjp
        have h1 : j ≤ i := hip.le
        have h2 : ¬ j + 1 ≤ j := by omega
        simp [h1, hip, hi, div_mul_cancel₀ _ hpv]
      · have h1 : p ≤ i := hip.le
        have h2 : p ≤ j := hjp.le
        have h3 : j ≠ p := by omega
        have h4 : p + 1 ≤ i := hip
        have h5 : p + 1 ≤ j := hjp
        simp [h1, h2, h3, h4, h5, hip, hi, hjp, hj]
  · have h1 : ¬ p < q := by omega
    simp only [h1, false_and, if_false]
    rcases Nat.lt_or_ge q p with h2 | h2
    · exact h.piv q h2 hq'
    · rw [show q = p by omega] at hq' ⊢
      exact hne hq'

theorem luInv_zero (n : Nat) (a : Nat → Nat → K) : LuInv n a 0 a :=
  ⟨fun i j _ _ => by simp, fun q hq => by omega⟩

/-- **Factors**: if no leading block is singular the factors exist, their product is the matrix, the pivots are not
zero. -/
theorem lu_ok {n : Nat} {a : Nat → Nat → K} (h : ∀ m, m ≤ n → Leading a m) :
    (lu n a).Sat fun b => (∀ i j, i < n → j < n → a i j = ∑ q ∈ range n, lower b i q * upper b q j) ∧
      ∀ q, q < n → b q q ≠ 0 := by
  unfold lu
  refine (forRange_inv (fun p b => LuInv n a p b ∧ ∀ q, q < p → b q q ≠ 0) (Nat.zero_le n)
    ⟨luInv_zero n a, fun q hq => by omega⟩ ?_).mono ?_
  · rintro p b - hp ⟨hb, hq⟩
    have hne := luInv_pivot hb hp (h (p + 1) hp)
    refine (show (luStep n p b).Sat fun b' => LuInv n a (p + 1) b' ∧ ∀ q, q < p + 1 → b' q q = b q q from ?_).mono ?_
    · obtain ⟨b', e, hb'⟩ := luInv_step hb hp fun _ => hne
      refine ⟨b', e, hb', fun q hq => ?_⟩
      unfold luStep at e
      rw [if_neg (fun hh => hne hh.2)] at e
      injection e with e
      rw [← e]
      have : ¬ p < q := by omega
      simp [this]
    · rintro b' ⟨h1, h2⟩
      refine ⟨h1, fun q hq' => ?_⟩
      rw [h2 q hq']
      rcases Nat.lt_or_ge q p with h3 | h3
      · exact hq q h3
      · rw [show q = p by omega]; exact hne
  · rintro b ⟨h1, h2⟩
    refine ⟨fun i j hi hj => ?_, h2⟩
    rw [h1.eq i j hi hj, if_neg (by omega), add_zero]

theorem trsmLower_ok (n : Nat) (a b0 : Nat → Nat → K) :
    (trsmLower n a b0).Sat fun b => ∀ i j, i < n → b0 i j = ∑ q ∈ range n, lower a i q * b q j := by
  unfold trsmLower
  refine (forRange_inv (fun p b => ∀ i j, i < n → b0 i j = ∑ q ∈ range p, lower a i q * b q j +
    if p ≤ i then b i j else 0) (Nat.zero_le n) (fun i j _ => by simp) ?_).mono ?_
  · rintro p b - hp h
    rw [Res.sat_ok]
    intro i j hi
    rw [h i j hi, sum_range_succ, add_assoc]
    congr 1
    · refine sum_congr rfl fun q hq => ?_
      have : ¬ p < q := by have := mem_range.1 hq; omega
      simp [this]
    · unfold lower
      rcases Nat.lt_trichotomy i p with hip | hip | hip
      · have h1 : ¬ p < i := by omega
        have h2 : ¬ p = i := by omega
        have h3 : ¬ p ≤ i := by omega
        have h4 : ¬ p + 1 ≤ i := by omega
        simp [h1, h2, h3, h4]
      · subst hip; simp
      · have h1 : p ≤ i := hip.le
        have h4 : p + 1 ≤ i := hip
        simp [h1, h4, hip, hi]
  · intro b h i j hi
    rw [h i j hi, if_neg (by omega), add_zero]

theorem trsmUpper_ok {n : Nat} {a : Nat → Nat → K} (ha : ∀ q, q < n → a q q ≠ 0) (b0 : Nat → Nat → K) :
    (trsmUpper n a b0).Sat fun b => ∀ i j, i < n → b0 i j = ∑ q ∈ range n, upper a i q * b q j := by
  unfold trsmUpper
  refine (forRange_inv (fun k b => ∀ i j, i < n → b0 i j = ∑ q ∈ Ico (n - k) n, upper a i q * b q j +
    if i < n - k then b i j else 0) (Nat.zero_le n) (fun i j hi => by simp [hi]) ?_).mono ?_
  · rintro k b - hk h
    dsimp only
    have hp : n - 1 - k < n := by omega
    rw [if_neg (ha _ hp), Res.sat_ok]
    intro i j hi
    have e : n - k = n - 1 - k + 1 := by omega
    have e' : n - (k + 1) = n - 1 - k := by omega
    rw [h i j hi, e', sum_eq_sum_Ico_succ_bot hp, e]
    generalize n - 1 - k = p at hp
    rw [add_comm (upper a i p * _), add_assoc]
    congr 1
    · refine sum_congr rfl fun q hq => ?_
      have := mem_Ico.1 hq
      have h1 : q ≠ p := by omega
      have h2 : ¬ q < p := by omega
      simp [h1, h2]
    · unfold upper
      rcases Nat.lt_trichotomy i p with hip | hip | hip
      · have h1 : i ≤ p := hip.le
        have h2 : i < p + 1 := by omega
        have h3 : i ≠ p := by omega
        simp [h1, h2, h3, hip]
      · subst hip
        have := ha i hi
        simp
        field_simp
      · have h1 : ¬ i ≤ p := by omega
        have h2 : ¬ i < p + 1 := by omega
        have h3 : ¬ i < p := by omega
        simp [h1, h2, h3]
  · intro b h i j hi
    rw [h i j hi, Nat.sub_self, if_neg (by omega), add_zero, Finset.range_eq_Ico]

/-! ## Inverse -/

/-- `b` is the inverse of the first `n` rows and columns of `a`, from both sides. -/
def IsInverse (n : Nat) (a b : Nat → Nat → K) : Prop :=
  ∀ i j, i < n → j < n → ∑ q ∈ range n, a i q * b q j = (if i = j then 1 else 0) ∧
    ∑ q ∈ range n, b i q * a q j = if i = j then 1 else 0

omit [DecidableEq K] in
theorem isInverse_of_right {n : Nat} {a b : Nat → Nat → K}
    (h : ∀ i j, i < n → j < n → ∑ q ∈ range n, a i q * b q j = if i = j then 1 else 0) : IsInverse n a b := by
  let A : Matrix (Fin n) (Fin n) K := Matrix.of fun i j => a i j
  let B : Matrix (Fin n) (Fin n) K := Matrix.of fun i j => b i j
  have hAB : A * B = 1 := by
    ext i j
    rw [Matrix.mul_apply, Matrix.one_apply]
    have := h i j i.2 j.2
    rw [sum_range] at this
    simpa [A, B, Fin.ext_iff] using this
  have hBA := mul_eq_one_comm.1 hAB
  intro i j hi hj
  refine ⟨h i j hi hj, ?_⟩
  have := congrFun (congrFun hBA ⟨i, hi⟩) ⟨j, hj⟩
  rw [Matrix.mul_apply, Matrix.one_apply] at this
  rw [sum_range]
  simpa [A, B, Fin.ext_iff] using this

theorem cell_ok {n : Nat} {a b0 : Nat → Nat → K} (h : ∀ m, m ≤ n → Leading a m)
    (hb : ∀ i j, i < n → j < n → b0 i j = if i = j then 1 else 0) :
    (do let l ← lu n a
        let b ← trsmLower n l b0
        let b ← trsmUpper n l b
        pure (l, b) : Res _).Sat fun r => IsInverse n a r.2 := by
  refine (lu_ok h).bind fun l hl => (trsmLower_ok n l b0).bind fun b hbL => (trsmUpper_ok hl.2 b).bind fun c hc => ?_
  rw [Res.pure_eq, Res.sat_ok]
  refine isInverse_of_right fun i j hi hj => ?_
  rw [← hb i j hi hj, hbL i j hi]
  rw [sum_congr rfl fun q hq => by rw [hl.1 i q hi (mem_range.1 hq), sum_mul], sum_comm]
  refine sum_congr rfl fun q hq => ?_
  rw [hc q j (mem_range.1 hq), mul_sum]
  exact sum_congr rfl fun t _ => by ring

/-- **C66, kernel**: if no leading block of a matrix is singular, `inverse` returns the inverse of every matrix. -/
theorem C66_inverse {order orderI : List Nat} {n nC : Nat} {A I : V3 K} (hs : IsSchedule order nC)
    (hsI : IsSchedule orderI nC) (hn : 0 < n) (hC : 0 < nC) (hA : A.d0 = nC ∧ A.d1 = n ∧ A.d2 = n)
    (hI : I.d0 = nC ∧ I.d1 = n ∧ I.d2 = n) (hL : ∀ c, c < nC → ∀ m, m ≤ n → Leading (A.e c) m) :
    (inverse order orderI n nC A I).Sat fun r => r.2.d0 = nC ∧ r.2.d1 = n ∧ r.2.d2 = n ∧
      ∀ c, c < nC → IsInverse n (A.e c) (r.2.e c) := by
  have hAs : 0 < A.size := by
    unfold V3.size; rw [hA.1, hA.2.1, hA.2.2]; positivity
  have hIs : I.size = A.size := by
    unfold V3.size; rw [hA.1, hA.2.1, hA.2.2, hI.1, hI.2.1, hI.2.2]
  unfold inverse
  rw [if_neg (by omega), if_neg (by omega), if_neg (by omega),
    C41_identity hsI (by omega) hI.1 hI.2.1.ge hI.2.2.ge, Res.ok_bind]
  refine (parFor_sched hs (fun D s => (s.1.d0 = nC ∧ s.1.d1 = n ∧ s.1.d2 = n) ∧ (s.2.d0 = nC ∧ s.2.d1 = n ∧ s.2.d2 = n) ∧
    (∀ c ∈ D, IsInverse n (A.e c) (s.2.e c)) ∧ ∀ c, c < nC → c ∉ D → s.1.e c = A.e c ∧
      ∀ i j, i < n → j < n → s.2.e c i j = if i = j then 1 else 0) ?_ ?_).mono ?_
  · refine ⟨hA, hI, by simp, fun c hc _ => ⟨rfl, fun i j hi hj => ?_⟩⟩
    simp [hc, hi, hj]
  · rintro D c s hc hD - ⟨h1, h2, h3, h4⟩
    obtain ⟨hA', hI'⟩ := h4 c hc hD
    unfold inverseCell
    rw [if_pos (by omega), hA', h1.2.1]
    obtain ⟨⟨l, b⟩, e, hb⟩ := cell_ok (hL c hc) hI'
    have e' : (do
        let a ← lu n (A.e c)
        let b ← trsmLower n a (s.2.e c)
        let b ← trsmUpper n a b
        pure (s.1.cell c a, s.2.cell c b) : Res (V3 K × V3 K)) = .ok (s.1.cell c l, s.2.cell c b) := by
      revert e
      cases lu n (A.e c) with
      | ok l' =>
        simp only [Res.ok_bind]
        cases trsmLower n l' (s.2.e c) with
        | ok b' =>
          simp only [Res.ok_bind]
          cases trsmUpper n l' b' with
          | ok b'' =>
            simp only [Res.ok_bind, Res.pure_eq]
            intro e
            injection e with e
            injection e with e1 e2
            rw [e1, e2]
          | err m => intro e; cases e
          | ub => intro e; cases e
        | err m => intro e; cases e
        | ub => intro e; cases e
      | err m => intro e; cases e
      | ub => intro e; cases e
    rw [e', Res.sat_ok]
    refine ⟨h1, h2, ?_, ?_⟩
    · intro c' hc'
      by_cases h : c' = c
      · subst h
        simpa [V3.cell] using hb
      · have := h3 c' ((mem_insert.1 hc').resolve_left h)
        simpa [V3.cell, h] using this
    · intro c' hc' hn'
      rw [mem_insert, not_or] at hn'
      have := h4 c' hc' hn'.2
      simpa [V3.cell, hn'.1] using this
  · rintro s ⟨-, h2, h3, -⟩
    exact ⟨h2.1, h2.2.1, h2.2.2, fun c hc => h3 c (mem_range.2 hc)⟩

/-- Factors break down at the second row. -/
theorem lu_ub {n : Nat} {a : Nat → Nat → K} (hn : 2 < n) (h0 : a 0 0 ≠ 0)
    (h1 : a 1 1 - a 1 0 / a 0 0 * a 0 1 = 0) : lu n a = .ub := by
  unfold lu
  rw [forRange_succ (by omega)]
  have e : luStep n 0 a = .ok (fun i j => if 0 < i ∧ i < n then
      if j = 0 then a i 0 / a 0 0 else if 0 < j ∧ j < n then a i j - a i 0 / a 0 0 * a 0 j else a i j
    else a i j) := by
    unfold luStep
    rw [if_neg (fun hh => h0 hh.2)]
  rw [e, Res.ok_bind, forRange_succ (by omega)]
  have e' : luStep n 1 (fun i j => if 0 < i ∧ i < n then
      if j = 0 then a i 0 / a 0 0 else if 0 < j ∧ j < n then a i j - a i 0 / a 0 0 * a 0 j else a i j
    else a i j) = .ub := by
    unfold luStep
    rw [if_pos]
    refine ⟨by omega, ?_⟩
    have : 1 < n := by omega
    simpa [this] using h1
  rw [e']
  rfl

end Plato.blas3
