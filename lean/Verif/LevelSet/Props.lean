import Verif.LevelSet.Model
import Verif.Blas.Matrix
import Mathlib.Tactic.Linarith
import Mathlib.Tactic.FieldSimp
import Mathlib.Algebra.Order.BigOperators.Group.Finset
import Mathlib.Algebra.BigOperators.Field

/-!
# C107: motion of the level set

The specification speaks about the length of the gradient of the level set on an element, the speed of
an element, and the values at the nodes; it does not mention the weights of the scheme.
-/

namespace Plato.LevelSet

open Finset

/-! ## Specification -/

/-- Number of local node `n` of element `e`. -/
def node (M : Mesh) (e n : Nat) : Nat := at0 M.conn (e * (M.dim + 1) + n)

/-- The present value at a node. -/
def value (F : Fields) (i : Nat) : ℝ := F.levelSet.e i F.cur

/-- Length of the gradient on element `e` of the function with values `x` at the nodes. -/
noncomputable def steepness (M : Mesh) (x : Nat → ℝ) (e : Nat) : ℝ :=
  Real.sqrt (∑ k ∈ range M.dim, (∑ n ∈ range (M.dim + 1), M.grad e n k * x (node M e n)) ^ 2)

/-- Speed of an element. -/
noncomputable def speedOf (M : Mesh) (F : Fields) (e : Nat) : ℝ :=
  if F.useElem then at0 F.elemSpeed e
  else (∑ n ∈ range (M.dim + 1), at0 F.nodalSpeed (node M e n)) / (M.dim + 1 : ℕ)

/-- Fields declared for the mesh, elements of positive volume. -/
structure WF (M : Mesh) (F : Fields) : Prop where
  conn : M.conn.length = M.nelems * (M.dim + 1)
  verts : ∀ k, k < M.conn.length → at0 M.conn k < M.nverts
  vol : ∀ e, e < M.nelems → 0 < M.vol e
  rhs : F.rhs.length = M.nverts
  norm : F.norm.length = M.nverts
  d0 : F.levelSet.d0 = M.nverts
  d1 : F.levelSet.d1 = 2
  cur : F.cur < 2
  elem : F.useElem = true → F.elemSpeed.length = M.nelems
  nodal : F.useElem = false → F.nodalSpeed.length = M.nverts

/-! ## One element -/

section Element

variable {d : Nat} {g : Nat → Nat → ℝ} {φ : Nat → ℝ} {vol s : ℝ}

/-- The contribution of an element is the speed times the steepness times the volume. -/
theorem hamiltonian_eq : hamiltonian d φ (coeff d g φ vol s) = vol * s * slope d g φ := by
  unfold hamiltonian coeff
  have h1 : ∀ n ∈ range (d + 1), (vol * s * ∑ k ∈ range d, direction d g φ k / slope d g φ * g n k) * φ n
      = ∑ k ∈ range d, vol * s * (direction d g φ k / slope d g φ) * (g n k * φ n) := by
    intro n _
    rw [Finset.mul_sum, Finset.sum_mul]
    exact Finset.sum_congr rfl fun k _ => by ring
  rw [Finset.sum_congr rfl h1, Finset.sum_comm]
  have h2 : ∀ k ∈ range d, ∑ n ∈ range (d + 1), vol * s * (direction d g φ k / slope d g φ) * (g n k * φ n)
      = vol * s * (direction d g φ k * direction d g φ k / slope d g φ) := by
    intro k _
    rw [← Finset.mul_sum]
    change _ * direction d g φ k = _
    ring
  rw [Finset.sum_congr rfl h2, ← Finset.mul_sum, ← Finset.sum_div]
  congr 1
  unfold slope
  rw [Real.div_sqrt]

theorem slope_nonneg : 0 ≤ slope d g φ := Real.sqrt_nonneg _

/-- A node at which the level set is not above the other nodes gets no weight if the front moves
outward. -/
theorem alpha_min {n : Nat} (hv : 0 < vol) (hs : 0 ≤ s) (hmin : ∀ j, j < d + 1 → φ n ≤ φ j) :
    alpha d φ (coeff d g φ vol s) n ≤ 0 := by
  unfold alpha
  split_ifs with hK
  · rw [hamiltonian_eq]
    have h1 : negContrib d φ (coeff d g φ vol s) - sumNeg d (coeff d g φ vol s) * φ n ≤ 0 := by
      unfold negContrib sumNeg
      rw [Finset.sum_mul, ← Finset.sum_sub_distrib]
      apply Finset.sum_nonpos
      intro j hj
      split_ifs with h
      · have := hmin j (mem_range.1 hj)
        nlinarith
      · simp
    have h2 : 0 ≤ vol * s * slope d g φ := by
      have := slope_nonneg (d := d) (g := g) (φ := φ)
      positivity
    have h3 : 0 ≤ coeff d g φ vol s n / sumPos d (coeff d g φ vol s) := by
      refine div_nonneg hK.le ?_
      unfold sumPos
      apply Finset.sum_nonneg
      intro j _
      split_ifs with h
      · exact le_rfl
      · exact not_lt.1 h
    exact div_nonpos_of_nonpos_of_nonneg (mul_nonpos_of_nonneg_of_nonpos h3 h1) h2
  · exact le_rfl

/-- The same for a front that moves inward and a node at which the level set is not below. -/
theorem alpha_max {n : Nat} (hv : 0 < vol) (hs : s ≤ 0) (hmax : ∀ j, j < d + 1 → φ j ≤ φ n) :
    alpha d φ (coeff d g φ vol s) n ≤ 0 := by
  unfold alpha
  split_ifs with hK
  · rw [hamiltonian_eq]
    have h1 : 0 ≤ negContrib d φ (coeff d g φ vol s) - sumNeg d (coeff d g φ vol s) * φ n := by
      unfold negContrib sumNeg
      rw [Finset.sum_mul, ← Finset.sum_sub_distrib]
      apply Finset.sum_nonneg
      intro j hj
      split_ifs with h
      · have := hmax j (mem_range.1 hj)
        nlinarith
      · simp
    have h2 : vol * s * slope d g φ ≤ 0 := by
      have := slope_nonneg (d := d) (g := g) (φ := φ)
      exact mul_nonpos_of_nonpos_of_nonneg (mul_nonpos_of_nonneg_of_nonpos hv.le hs) this
    have h3 : 0 ≤ coeff d g φ vol s n / sumPos d (coeff d g φ vol s) := by
      refine div_nonneg hK.le ?_
      unfold sumPos
      apply Finset.sum_nonneg
      intro j _
      split_ifs with h
      · exact le_rfl
      · exact not_lt.1 h
    exact div_nonpos_of_nonneg_of_nonpos (mul_nonneg h3 h1) h2
  · exact le_rfl

/-- If the gradients of the basis functions add up to zero, the weights of an element in which the level
set varies add up to one. -/
theorem alpha_sum (hv : vol ≠ 0) (hs : s ≠ 0) (hslope : slope d g φ ≠ 0)
    (hg : ∀ k, k < d → ∑ n ∈ range (d + 1), g n k = 0) :
    ∑ n ∈ range (d + 1), alpha d φ (coeff d g φ vol s) n = 1 := by
  set K := coeff d g φ vol s with hK
  have hH : hamiltonian d φ K ≠ 0 := by
    rw [hK, hamiltonian_eq]; exact mul_ne_zero (mul_ne_zero hv hs) hslope
  have hsum : ∑ n ∈ range (d + 1), K n = 0 := by
    rw [hK]
    unfold coeff
    rw [← Finset.mul_sum, Finset.sum_comm]
    have : ∀ k ∈ range d, ∑ n ∈ range (d + 1), direction d g φ k / slope d g φ * g n k = 0 := by
      intro k hk
      rw [← Finset.mul_sum, hg k (mem_range.1 hk), mul_zero]
    rw [Finset.sum_congr rfl this]
    simp
  have hpn : sumNeg d K + sumPos d K = 0 := by
    rw [← hsum]
    unfold sumNeg sumPos
    rw [← Finset.sum_add_distrib]
    exact Finset.sum_congr rfl fun n _ => by split_ifs <;> ring
  have hposc : ∀ n, (if 0 < K n then K n else 0) = if K n < 0 then 0 else K n := by
    intro n
    rcases lt_trichotomy (K n) 0 with h | h | h
    · rw [if_neg (not_lt.2 h.le), if_pos h]
    · simp [h]
    · rw [if_pos h, if_neg (not_lt.2 h.le)]
  have hPne : sumPos d K ≠ 0 := by
    intro h0
    apply hH
    have hz : ∀ n ∈ range (d + 1), (if K n < 0 then 0 else K n) = 0 := by
      refine (Finset.sum_eq_zero_iff_of_nonneg ?_).1 h0
      intro n _
      split_ifs with h
      · exact le_rfl
      · exact not_lt.1 h
    have hz' : ∀ n ∈ range (d + 1), (if K n < 0 then K n else 0) = 0 := by
      have hN : ∑ n ∈ range (d + 1), -(if K n < 0 then K n else 0) = 0 := by
        rw [Finset.sum_neg_distrib]
        unfold sumNeg at hpn
        rw [h0, add_zero] at hpn
        rw [hpn, neg_zero]
      intro n hn
      have := (Finset.sum_eq_zero_iff_of_nonneg (fun n _ => by
        split_ifs with h
        · exact (neg_pos.2 h).le
        · simp)).1 hN n hn
      linarith
    unfold hamiltonian
    apply Finset.sum_eq_zero
    intro n hn
    have h1 := hz n hn
    have h2 := hz' n hn
    by_cases h : K n < 0
    · rw [if_pos h] at h2; rw [h2, zero_mul]
    · rw [if_neg h] at h1; rw [h1, zero_mul]
  have h1 : ∀ n ∈ range (d + 1), alpha d φ K n = ((if 0 < K n then K n else 0) * negContrib d φ K
      - sumNeg d K * ((if 0 < K n then K n else 0) * φ n)) * (1 / (sumPos d K * hamiltonian d φ K)) := by
    intro n _
    unfold alpha
    split_ifs with h
    · field_simp
    · simp
  rw [Finset.sum_congr rfl h1, ← Finset.sum_mul, Finset.sum_sub_distrib, ← Finset.sum_mul, ← Finset.mul_sum]
  have h2 : ∑ n ∈ range (d + 1), (if 0 < K n then K n else 0) = sumPos d K := by
    unfold sumPos
    exact Finset.sum_congr rfl fun n _ => hposc n
  have h3 : negContrib d φ K + ∑ n ∈ range (d + 1), (if 0 < K n then K n else 0) * φ n = hamiltonian d φ K := by
    unfold negContrib hamiltonian
    rw [← Finset.sum_add_distrib]
    refine Finset.sum_congr rfl fun n _ => ?_
    rw [hposc]
    split_ifs <;> ring
  rw [h2, show sumNeg d K = - sumPos d K by linarith]
  rw [show sumPos d K * negContrib d φ K - -sumPos d K * ∑ n ∈ range (d + 1), (if 0 < K n then K n else 0) * φ n
    = sumPos d K * hamiltonian d φ K by rw [← h3]; ring]
  field_simp

/-- The sum of the positive weights is positive if there is one. -/
theorem sumPosAlpha_pos {K : Nat → ℝ} {n : Nat} (hn : n < d + 1) (h : 0 < alpha d φ K n) :
    0 < sumPosAlpha d φ K := by
  unfold sumPosAlpha
  refine Finset.sum_pos' ?_ ⟨n, mem_range.2 hn, ?_⟩
  · intro j _
    split_ifs with h
    · exact h.le
    · exact le_rfl
  · rw [if_pos h]; exact h

/-- Only values at the nodes of the element count. -/
theorem direction_congr {φ ψ : Nat → ℝ} (h : ∀ n, n < d + 1 → φ n = ψ n) (k : Nat) :
    direction d g φ k = direction d g ψ k :=
  Finset.sum_congr rfl fun n hn => by rw [h n (mem_range.1 hn)]

end Element

/-! ## Reading an element -/

section Read

variable {M : Mesh} {F : Fields} (h : WF M F)
include h

theorem node_lt {e n : Nat} (he : e < M.nelems) (hn : n < M.dim + 1) : node M e n < M.nverts := by
  apply h.verts
  rw [h.conn]
  calc e * (M.dim + 1) + n < e * (M.dim + 1) + (M.dim + 1) := by omega
    _ = (e + 1) * (M.dim + 1) := by ring
    _ ≤ M.nelems * (M.dim + 1) := Nat.mul_le_mul_right _ he

theorem rd_conn {e n : Nat} (he : e < M.nelems) (hn : n < M.dim + 1) :
    rd M.conn (e * (M.dim + 1) + n) = .ok (node M e n) := by
  apply rd_at0
  rw [h.conn]
  calc e * (M.dim + 1) + n < e * (M.dim + 1) + (M.dim + 1) := by omega
    _ = (e + 1) * (M.dim + 1) := by ring
    _ ≤ M.nelems * (M.dim + 1) := Nat.mul_le_mul_right _ he

theorem nodes_ok {e : Nat} (he : e < M.nelems) :
    M.nodes e = .ok ((List.range (M.dim + 1)).map (node M e)) := by
  unfold Mesh.nodes
  exact forRange_eq (fun k => (List.range k).map (node M e)) (by
    intro k hk
    rw [rd_conn h he hk]
    simp only [Res.ok_bind, Res.pure_eq]
    rw [List.range_succ, List.map_append]
    rfl)

theorem values_ok {e : Nat} (he : e < M.nelems) :
    F.values ((List.range (M.dim + 1)).map (node M e))
      = .ok ((List.range (M.dim + 1)).map fun n => value F (node M e n)) := by
  unfold Fields.values
  rw [List.length_map, List.length_range]
  refine forRange_eq (fun k => (List.range k).map fun n => value F (node M e n)) ?_
  intro k hk
  rw [rd_eq (by simpa using hk)]
  simp only [Res.ok_bind, List.getElem_map, List.getElem_range]
  rw [vrd2_ok (by rw [h.d0]; exact node_lt h he hk) (by rw [h.d1]; exact h.cur)]
  simp only [Res.ok_bind, Res.pure_eq]
  rw [List.range_succ, List.map_append]
  rfl

theorem speed_ok {e : Nat} (he : e < M.nelems) :
    elementSpeed M F e ((List.range (M.dim + 1)).map (node M e)) = .ok (speedOf M F e) := by
  unfold elementSpeed speedOf
  by_cases hu : F.useElem = true
  · rw [if_pos hu, if_pos hu]
    exact rd_at0 (by rw [h.elem hu]; exact he)
  · rw [if_neg hu, if_neg hu]
    have hl := h.nodal (by simpa using hu)
    have key := forRange_eq (n := M.dim + 1) (body := fun n s => do
        let v ← rd ((List.range (M.dim + 1)).map (node M e)) n
        let x ← rd F.nodalSpeed v
        pure (s + x)) (fun k => ∑ n ∈ range k, at0 F.nodalSpeed (node M e n)) (by
      intro k hk
      rw [rd_eq (by simpa using hk)]
      simp only [Res.ok_bind, List.getElem_map, List.getElem_range]
      rw [rd_at0 (by rw [hl]; exact node_lt h he hk)]
      simp only [Res.ok_bind, Res.pure_eq]
      rw [Finset.sum_range_succ])
    rw [Finset.sum_range_zero] at key
    rw [key]
    rfl

omit h in
theorem at0_map_range {m n : Nat} (f : Nat → ℝ) (hn : n < m) : at0 ((List.range m).map f) n = f n := by
  rw [at0_eq (by simpa using hn)]
  simp

end Read

/-- Values at the nodes of an element, by local number. -/
noncomputable def locals (M : Mesh) (F : Fields) (e : Nat) : Nat → ℝ :=
  at0 ((List.range (M.dim + 1)).map fun n => value F (node M e n))

theorem locals_eq {M : Mesh} {F : Fields} {e n : Nat} (hn : n < M.dim + 1) :
    locals M F e n = value F (node M e n) := at0_map_range _ hn

theorem slope_steepness {M : Mesh} {F : Fields} {e : Nat} :
    slope M.dim (M.grad e) (locals M F e) = steepness M (value F) e := by
  unfold slope steepness
  congr 1
  refine Finset.sum_congr rfl fun k _ => ?_
  rw [← pow_two]
  congr 1
  exact Finset.sum_congr rfl fun n hn => by rw [locals_eq (mem_range.1 hn)]

/-- The weights of an element. -/
noncomputable def weight (M : Mesh) (F : Fields) (s : ℝ) (e n : Nat) : ℝ :=
  alpha M.dim (locals M F e) (coeff M.dim (M.grad e) (locals M F e) (M.vol e) s) n

/-! ## Assembly -/

/-- What a contribution does. -/
theorem contribute_ok {nv i : Nat} {a b : ℝ} {s : List ℝ × List ℝ} (h1 : s.1.length = nv)
    (h2 : s.2.length = nv) (hi : i < nv) :
    contribute i a b s = .ok (s.1.set i (at0 s.1 i + a), s.2.set i (at0 s.2 i + b)) := by
  unfold contribute
  rw [rd_at0 (by omega)]
  simp only [Res.ok_bind]
  rw [wr_eq (by omega)]
  simp only [Res.ok_bind]
  rw [rd_at0 (by omega)]
  simp only [Res.ok_bind]
  rw [wr_eq (by omega)]
  rfl

/-- Bounds of the assembled quotient at one node. -/
structure Between (nv : Nat) (i : Nat) (lo hi : ℝ) (s : List ℝ × List ℝ) : Prop where
  l1 : s.1.length = nv
  l2 : s.2.length = nv
  nonneg : 0 ≤ at0 s.2 i
  lower : lo * at0 s.2 i ≤ at0 s.1 i
  upper : at0 s.1 i ≤ hi * at0 s.2 i

theorem Between.add {nv i v : Nat} {lo hi : ℝ} {s : List ℝ × List ℝ} (h : Between nv i lo hi s)
    (hv : v < nv) {w V x : ℝ} (hw : 0 < w) (hV : 0 < V) (hx : v = i → lo ≤ x ∧ x ≤ hi) :
    Between nv i lo hi (s.1.set v (at0 s.1 v + w * (V * x)), s.2.set v (at0 s.2 v + w * V)) := by
  have hwV : 0 < w * V := mul_pos hw hV
  by_cases hvi : v = i
  · subst hvi
    obtain ⟨hx1, hx2⟩ := hx rfl
    refine ⟨by simpa using h.l1, by simpa using h.l2, ?_, ?_, ?_⟩
    · dsimp only
      rw [at0_set (by first | (rw [h.l2]; exact hv) | (rw [h.l1]; exact hv)), if_pos rfl]
      linarith [h.nonneg]
    · dsimp only
      rw [at0_set (by first | (rw [h.l2]; exact hv) | (rw [h.l1]; exact hv)), at0_set (by first | (rw [h.l2]; exact hv) | (rw [h.l1]; exact hv)), if_pos rfl, if_pos rfl]
      nlinarith [h.lower]
    · dsimp only
      rw [at0_set (by first | (rw [h.l2]; exact hv) | (rw [h.l1]; exact hv)), at0_set (by first | (rw [h.l2]; exact hv) | (rw [h.l1]; exact hv)), if_pos rfl, if_pos rfl]
      nlinarith [h.upper]
  · refine ⟨by simpa using h.l1, by simpa using h.l2, ?_, ?_, ?_⟩ <;> dsimp only
    · rw [at0_set (by first | (rw [h.l2]; exact hv) | (rw [h.l1]; exact hv)), if_neg (Ne.symm hvi)]
      exact h.nonneg
    · rw [at0_set (by first | (rw [h.l2]; exact hv) | (rw [h.l1]; exact hv)), at0_set (by first | (rw [h.l2]; exact hv) | (rw [h.l1]; exact hv)), if_neg (Ne.symm hvi),
        if_neg (Ne.symm hvi)]
      exact h.lower
    · rw [at0_set (by first | (rw [h.l2]; exact hv) | (rw [h.l1]; exact hv)), at0_set (by first | (rw [h.l2]; exact hv) | (rw [h.l1]; exact hv)), if_neg (Ne.symm hvi),
        if_neg (Ne.symm hvi)]
      exact h.upper

/-- A contribution does not take away from the norm. -/
theorem norm_add {nv i v : Nat} {lo hi : ℝ} {s : List ℝ × List ℝ} (h : Between nv i lo hi s)
    (hv : v < nv) {w V : ℝ} (hw : 0 < w) (hV : 0 < V) :
    at0 s.2 i ≤ at0 (s.2.set v (at0 s.2 v + w * V)) i ∧
      (v = i → 0 < at0 (s.2.set v (at0 s.2 v + w * V)) i) := by
  have hwV : 0 < w * V := mul_pos hw hV
  rw [at0_set (by first | (rw [h.l2]; exact hv) | (rw [h.l1]; exact hv))]
  by_cases hvi : i = v
  · subst hvi
    rw [if_pos rfl]
    exact ⟨by linarith, fun _ => by linarith [h.nonneg]⟩
  · rw [if_neg hvi]
    exact ⟨le_rfl, fun hc => absurd hc.symm hvi⟩

section Assemble

variable {M : Mesh} {F : Fields} (h : WF M F)
include h

/-- One element of the moving front: node `i` keeps its bounds, and has a positive norm if it has a
positive weight in the element. -/
theorem assembleElem_ok {i : Nat} {lo hi : ℝ} {e : Nat} (he : e < M.nelems)
    (hb : ∀ n, n < M.dim + 1 → node M e n = i → 0 < weight M F (speedOf M F e) e n →
      lo ≤ speedOf M F e * steepness M (value F) e ∧ speedOf M F e * steepness M (value F) e ≤ hi)
    {s : List ℝ × List ℝ} (hs : Between M.nverts i lo hi s) :
    (assembleElem M F e s).Sat fun t => Between M.nverts i lo hi t ∧ at0 s.2 i ≤ at0 t.2 i ∧
      ∀ n, n < M.dim + 1 → node M e n = i → 0 < weight M F (speedOf M F e) e n → 0 < at0 t.2 i := by
  unfold assembleElem
  rw [nodes_ok h he]
  simp only [Res.ok_bind]
  rw [values_ok h he]
  simp only [Res.ok_bind]
  rw [speed_ok h he]
  simp only [Res.ok_bind]
  refine (forRange_inv (fun (m : Nat) (t : List ℝ × List ℝ) => Between M.nverts i lo hi t ∧
    at0 s.2 i ≤ at0 t.2 i ∧ ∀ n, n < m → node M e n = i → 0 < weight M F (speedOf M F e) e n →
      0 < at0 t.2 i) (Nat.zero_le _) ⟨hs, le_rfl, fun n hn => absurd hn (Nat.not_lt_zero n)⟩ ?_).mono ?_
  · rintro m t - hm ⟨hB, hle, hpos⟩
    rw [rd_eq (by simpa using hm)]
    simp only [Res.ok_bind, List.getElem_map, List.getElem_range]
    by_cases ha : 0 < weight M F (speedOf M F e) e m
    · have ha' := ha
      unfold weight locals at ha'
      rw [if_pos ha', contribute_ok hB.l1 hB.l2 (node_lt h he hm), Res.sat_ok]
      have hH : hamiltonian M.dim (locals M F e)
          (coeff M.dim (M.grad e) (locals M F e) (M.vol e) (speedOf M F e))
          = M.vol e * (speedOf M F e * steepness M (value F) e) := by
        rw [hamiltonian_eq, slope_steepness, mul_assoc]
      unfold locals at hH
      rw [hH]
      have hw := div_pos ha' (sumPosAlpha_pos hm ha')
      have hadd := norm_add hB (node_lt h he hm) hw (h.vol e he)
      refine ⟨hB.add (node_lt h he hm) hw (h.vol e he) (fun hi => hb m hm hi ha), hle.trans hadd.1, ?_⟩
      intro n hn hni hwn
      rcases Nat.lt_succ_iff_lt_or_eq.1 hn with hlt | rfl
      · exact lt_of_lt_of_le (hpos n hlt hni hwn) hadd.1
      · exact hadd.2 hni
    · have ha' := ha
      unfold weight locals at ha'
      rw [if_neg ha', Res.sat_pure]
      refine ⟨hB, hle, ?_⟩
      intro n hn hni hwn
      rcases Nat.lt_succ_iff_lt_or_eq.1 hn with hlt | rfl
      · exact hpos n hlt hni hwn
      · exact absurd hwn ha
  · rintro t ⟨h1, h2, h3⟩
    exact ⟨h1, h2, h3⟩

/-- One element of the reinitialisation. -/
theorem assembleNodal_ok {eps : ℝ} {i : Nat} {lo hi : ℝ} {e : Nat} (he : e < M.nelems)
    (hb : ∀ n, n < M.dim + 1 → node M e n = i → 0 < weight M F (signOf eps (value F i)) e n →
      lo ≤ signOf eps (value F i) * steepness M (value F) e ∧
      signOf eps (value F i) * steepness M (value F) e ≤ hi)
    {s : List ℝ × List ℝ} (hs : Between M.nverts i lo hi s) :
    (assembleNodal M F eps e s).Sat fun t => Between M.nverts i lo hi t := by
  unfold assembleNodal
  rw [nodes_ok h he]
  simp only [Res.ok_bind]
  rw [values_ok h he]
  simp only [Res.ok_bind]
  refine (forRange_inv (fun (m : Nat) (t : List ℝ × List ℝ) => Between M.nverts i lo hi t)
    (Nat.zero_le _) hs ?_).mono (fun _ => id)
  rintro m t - hm hB
  rw [rd_eq (by simpa using hm)]
  simp only [Res.ok_bind, List.getElem_map, List.getElem_range]
  rw [show at0 ((List.range (M.dim + 1)).map fun n => value F (node M e n)) m = value F (node M e m) from
    at0_map_range _ hm]
  by_cases ha : 0 < weight M F (signOf eps (value F (node M e m))) e m
  · have ha' := ha
    unfold weight locals at ha'
    rw [if_pos ha', contribute_ok hB.l1 hB.l2 (node_lt h he hm), Res.sat_ok]
    have hH : hamiltonian M.dim (locals M F e)
        (coeff M.dim (M.grad e) (locals M F e) (M.vol e) (signOf eps (value F (node M e m))))
        = M.vol e * (signOf eps (value F (node M e m)) * steepness M (value F) e) := by
      rw [hamiltonian_eq, slope_steepness, mul_assoc]
    unfold locals at hH
    rw [hH]
    refine hB.add (node_lt h he hm) ha' (h.vol e he) (fun hi => ?_)
    subst hi
    exact hb m hm rfl ha
  · have ha' := ha
    unfold weight locals at ha'
    rw [if_neg ha', Res.sat_pure]
    exact hB

omit h in
theorem zeroOut_ok {order : List Nat} {n : Nat} (hs : IsSchedule order n) {v : List ℝ} (hv : v.length = n) :
    (zeroOut order v).Sat fun w => w.length = n ∧ ∀ i, at0 w i = 0 := by
  unfold zeroOut
  refine (parFor_map hs (fun _ _ => (0 : ℝ)) (fun i y hi hy => wr_eq (by omega)) hv).mono ?_
  rintro w ⟨h1, h2⟩
  refine ⟨h1, fun i => ?_⟩
  by_cases hi : i < n
  · exact h2 i hi
  · exact at0_out (by omega)

omit h in
theorem between_zero {nv i : Nat} {lo hi : ℝ} {r q : List ℝ} (h1 : r.length = nv ∧ ∀ i, at0 r i = 0)
    (h2 : q.length = nv ∧ ∀ i, at0 q i = 0) : Between nv i lo hi (r, q) :=
  ⟨h1.1, h2.1, by rw [h2.2], by rw [h1.2, h2.2]; simp, by rw [h1.2, h2.2]; simp⟩

omit h in
/-- The quotient at a node. -/
theorem Between.quotient {nv i : Nat} {lo hi : ℝ} {s : List ℝ × List ℝ} (h : Between nv i lo hi s)
    (hq : 0 < at0 s.2 i) : lo ≤ at0 s.1 i / at0 s.2 i ∧ at0 s.1 i / at0 s.2 i ≤ hi :=
  ⟨by rw [le_div_iff₀ hq]; exact h.lower, by rw [div_le_iff₀ hq]; exact h.upper⟩

end Assemble

/-! ## The two steps -/

/-- What a step leaves alone: the mesh still fits, the values before the step are still there. -/
structure Kept (M : Mesh) (F G : Fields) : Prop where
  wf : WF M G
  cur : G.cur = (F.cur + 1) % 2
  elemSpeed : G.elemSpeed = F.elemSpeed
  nodalSpeed : G.nodalSpeed = F.nodalSpeed
  useElem : G.useElem = F.useElem
  old : ∀ i, G.levelSet.e i F.cur = value F i

/-- The assembly of a moving front. -/
theorem assemble_evolve {M : Mesh} {F : Fields} (h : WF M F) {oe : List Nat} (he : IsSchedule oe M.nelems)
    {i : Nat} {lo hi : ℝ}
    (hb : ∀ e n, e < M.nelems → n < M.dim + 1 → node M e n = i → 0 < weight M F (speedOf M F e) e n →
      lo ≤ speedOf M F e * steepness M (value F) e ∧ speedOf M F e * steepness M (value F) e ≤ hi)
    {s : List ℝ × List ℝ} (hs : Between M.nverts i lo hi s) :
    (parFor oe s (assembleElem M F)).Sat fun t => Between M.nverts i lo hi t ∧
      ∀ e n, e < M.nelems → n < M.dim + 1 → node M e n = i → 0 < weight M F (speedOf M F e) e n →
        0 < at0 t.2 i := by
  refine (parFor_sched he (fun D t => Between M.nverts i lo hi t ∧
    ∀ e n, e ∈ D → n < M.dim + 1 → node M e n = i → 0 < weight M F (speedOf M F e) e n → 0 < at0 t.2 i)
    ⟨hs, by simp⟩ ?_).mono ?_
  · rintro D e t he - - ⟨hB, hD⟩
    refine (assembleElem_ok h he (fun n hn => hb e n he hn) hB).mono ?_
    rintro t' ⟨h1, h2, h3⟩
    refine ⟨h1, ?_⟩
    intro e' n hmem hn hni hw
    rcases Finset.mem_insert.1 hmem with rfl | hmem
    · exact h3 n hn hni hw
    · exact lt_of_lt_of_le (hD e' n hmem hn hni hw) h2
  · rintro t ⟨h1, h2⟩
    exact ⟨h1, fun e n he => h2 e n (mem_range.2 he)⟩

theorem assemble_eikonal {M : Mesh} {F : Fields} (h : WF M F) {oe : List Nat} (he : IsSchedule oe M.nelems)
    {eps : ℝ} {i : Nat} {lo hi : ℝ}
    (hb : ∀ e n, e < M.nelems → n < M.dim + 1 → node M e n = i →
      0 < weight M F (signOf eps (value F i)) e n →
      lo ≤ signOf eps (value F i) * steepness M (value F) e ∧
      signOf eps (value F i) * steepness M (value F) e ≤ hi)
    {s : List ℝ × List ℝ} (hs : Between M.nverts i lo hi s) :
    (parFor oe s (assembleNodal M F eps)).Sat fun t => Between M.nverts i lo hi t := by
  refine (parFor_sched he (fun _ t => Between M.nverts i lo hi t) hs ?_).mono (fun _ => id)
  rintro D e t he - - hB
  exact assembleNodal_ok h he (fun n hn => hb e n he hn) hB

/-- The two assembled vectors of a step. -/
theorem vectors_ok {M : Mesh} {F : Fields} (h : WF M F) {o1 o2 oe : List Nat} (h1 : IsSchedule o1 M.nverts)
    (h2 : IsSchedule o2 M.nverts) {i : Nat} {lo hi : ℝ} {body : Nat → List ℝ × List ℝ → Res (List ℝ × List ℝ)}
    {P : List ℝ × List ℝ → Prop}
    (hb : ∀ s, Between M.nverts i lo hi s → (parFor oe s body).Sat P) :
    (do
      let rhs ← zeroOut o1 F.rhs
      let norm ← zeroOut o2 F.norm
      parFor oe (rhs, norm) body).Sat P :=
  (zeroOut_ok h1 h.rhs).bind fun _ hr => (zeroOut_ok h2 h.norm).bind fun _ hq =>
    hb _ (between_zero hr hq)

/-- `evolve` at one node. -/
theorem evolve_ok {M : Mesh} {F : Fields} (h : WF M F) {o1 o2 oe on : List Nat} (h1 : IsSchedule o1 M.nverts)
    (h2 : IsSchedule o2 M.nverts) (he : IsSchedule oe M.nelems) (hn : IsSchedule on M.nverts) (dt : ℝ)
    {i : Nat} (hiv : i < M.nverts) {lo hi : ℝ}
    (hb : ∀ e n, e < M.nelems → n < M.dim + 1 → node M e n = i → 0 < weight M F (speedOf M F e) e n →
      lo ≤ speedOf M F e * steepness M (value F) e ∧ speedOf M F e * steepness M (value F) e ≤ hi) :
    (evolve M o1 o2 oe on dt F).Sat fun G => Kept M F G ∧ ∃ v, value G i = value F i - dt * v ∧
      (v = 0 ∨ lo ≤ v ∧ v ≤ hi) ∧
      ((∃ e n, e < M.nelems ∧ n < M.dim + 1 ∧ node M e n = i ∧ 0 < weight M F (speedOf M F e) e n) →
        lo ≤ v ∧ v ≤ hi) := by
  unfold evolve
  refine (zeroOut_ok h1 h.rhs).bind fun r hr => (zeroOut_ok h2 h.norm).bind fun q hq => ?_
  refine (assemble_evolve h he hb (between_zero hr hq)).bind ?_
  rintro s ⟨hB, hpos⟩
  dsimp only
  have hne : F.cur ≠ (F.cur + 1) % 2 := by have := h.cur; omega
  refine (parFor_sched hn (fun D (ls : V2 ℝ) => ls.d0 = M.nverts ∧ ls.d1 = 2 ∧
    ∀ j c, ls.e j c = if j ∈ D ∧ c = (F.cur + 1) % 2 then
      value F j - dt * (if 0 < at0 s.2 j then at0 s.1 j / at0 s.2 j else 0) else F.levelSet.e j c)
    ⟨h.d0, h.d1, by simp⟩ ?_).bind ?_
  · rintro D j ls hj hD - ⟨hd0, hd1, hls⟩
    rw [rd_at0 (by rw [hB.l1]; exact hj)]
    simp only [Res.ok_bind]
    rw [rd_at0 (by rw [hB.l2]; exact hj)]
    simp only [Res.ok_bind]
    rw [vrd2_ok (by omega) (by rw [hd1]; exact h.cur)]
    simp only [Res.ok_bind]
    have hx : ls.e j F.cur = value F j := by
      rw [hls, if_neg (fun hc => hne hc.2)]; rfl
    rw [hx]
    unfold vwr2
    rw [if_pos ⟨by omega, by omega⟩, Res.sat_ok]
    refine ⟨hd0, hd1, ?_⟩
    intro j' c
    dsimp only
    by_cases hj' : j' = j
    · subst hj'
      by_cases hc : c = (F.cur + 1) % 2
      · rw [if_pos (And.intro rfl hc : j' = j' ∧ c = (F.cur + 1) % 2),
          if_pos (And.intro (Finset.mem_insert_self _ _) hc : j' ∈ insert j' D ∧ c = (F.cur + 1) % 2)]
      · rw [if_neg (fun h : j' = j' ∧ c = (F.cur + 1) % 2 => hc h.2),
          if_neg (fun h : j' ∈ insert j' D ∧ c = (F.cur + 1) % 2 => hc h.2), hls,
          if_neg (fun h : j' ∈ D ∧ c = (F.cur + 1) % 2 => hc h.2)]
    · rw [if_neg (fun h : j' = j ∧ c = (F.cur + 1) % 2 => hj' h.1), hls]
      simp only [Finset.mem_insert, hj', false_or]
  · rintro ls ⟨hd0, hd1, hls⟩
    rw [Res.sat_pure]
    refine ⟨⟨⟨h.conn, h.verts, h.vol, hB.l1, hB.l2, hd0, hd1, Nat.mod_lt _ (by omega), h.elem, h.nodal⟩,
      rfl, rfl, rfl, rfl, ?_⟩, if 0 < at0 s.2 i then at0 s.1 i / at0 s.2 i else 0, ?_, ?_, ?_⟩
    · intro j
      dsimp only
      rw [hls, if_neg (fun hc => hne hc.2)]
      rfl
    · change ls.e i ((F.cur + 1) % 2) = _
      rw [hls, if_pos ⟨mem_range.2 hiv, rfl⟩]
    · by_cases hq : 0 < at0 s.2 i
      · rw [if_pos hq]
        exact Or.inr (hB.quotient hq)
      · rw [if_neg hq]
        exact Or.inl rfl
    · rintro ⟨e, n, he, hn, hni, hw⟩
      have hq := hpos e n he hn hni hw
      rw [if_pos hq]
      exact hB.quotient hq

/-- `assemble_and_update_Eikonal` at one node. -/
theorem eikonal_ok {M : Mesh} {F : Fields} (h : WF M F) {o1 o2 oe on : List Nat} (h1 : IsSchedule o1 M.nverts)
    (h2 : IsSchedule o2 M.nverts) (he : IsSchedule oe M.nelems) (hn : IsSchedule on M.nverts) (eps dtau : ℝ)
    {i : Nat} (hiv : i < M.nverts) {lo hi : ℝ}
    (hb : ∀ e n, e < M.nelems → n < M.dim + 1 → node M e n = i →
      0 < weight M F (signOf eps (value F i)) e n →
      lo ≤ signOf eps (value F i) * steepness M (value F) e ∧
      signOf eps (value F i) * steepness M (value F) e ≤ hi) :
    (eikonal M o1 o2 oe on eps dtau F).Sat fun G => Kept M F G.1 ∧ ∃ v,
      value G.1 i = value F i - dtau * (v - signOf eps (value F i)) ∧ (v = 0 ∨ lo ≤ v ∧ v ≤ hi) := by
  unfold eikonal
  refine (zeroOut_ok h1 h.rhs).bind fun r hr => (zeroOut_ok h2 h.norm).bind fun q hq => ?_
  refine (assemble_eikonal h he hb (between_zero hr hq)).bind ?_
  rintro s hB
  dsimp only
  have hne : F.cur ≠ (F.cur + 1) % 2 := by have := h.cur; omega
  refine (parFor_sched hn (fun D (t : V2 ℝ × ℝ × Nat) => t.1.d0 = M.nverts ∧ t.1.d1 = 2 ∧
    ∀ j c, t.1.e j c = if j ∈ D ∧ c = (F.cur + 1) % 2 then
      value F j - dtau * ((if 0 < at0 s.2 j then at0 s.1 j / at0 s.2 j else 0) - signOf eps (value F j))
      else F.levelSet.e j c) ⟨h.d0, h.d1, by simp⟩ ?_).bind ?_
  · rintro D j t hj hD - ⟨hd0, hd1, hls⟩
    rw [rd_at0 (by rw [hB.l1]; exact hj)]
    simp only [Res.ok_bind]
    rw [rd_at0 (by rw [hB.l2]; exact hj)]
    simp only [Res.ok_bind]
    rw [vrd2_ok (by omega) (by rw [hd1]; exact h.cur)]
    simp only [Res.ok_bind]
    have hx : t.1.e j F.cur = value F j := by
      rw [hls, if_neg (fun hc => hne hc.2)]; rfl
    rw [hx]
    unfold vwr2
    rw [if_pos ⟨by omega, by omega⟩]
    simp only [Res.ok_bind]
    have key : ∀ x : ℝ × Nat, (Res.ok ((⟨t.1.d0, t.1.d1, fun r c => if r = j ∧ c = (F.cur + 1) % 2 then
        value F j - dtau * ((if 0 < at0 s.2 j then at0 s.1 j / at0 s.2 j else 0) - signOf eps (value F j))
        else t.1.e r c⟩ : V2 ℝ), x)).Sat (fun (t : V2 ℝ × ℝ × Nat) => t.1.d0 = M.nverts ∧ t.1.d1 = 2 ∧
      ∀ j' c, t.1.e j' c = if j' ∈ insert j D ∧ c = (F.cur + 1) % 2 then
        value F j' - dtau * ((if 0 < at0 s.2 j' then at0 s.1 j' / at0 s.2 j' else 0) - signOf eps (value F j'))
        else F.levelSet.e j' c) := by
      intro x
      rw [Res.sat_ok]
      refine ⟨hd0, hd1, ?_⟩
      intro j' c
      dsimp only
      by_cases hj' : j' = j
      · subst hj'
        by_cases hc : c = (F.cur + 1) % 2
        · rw [if_pos (And.intro rfl hc : j' = j' ∧ c = (F.cur + 1) % 2),
          if_pos (And.intro (Finset.mem_insert_self _ _) hc : j' ∈ insert j' D ∧ c = (F.cur + 1) % 2)]
        · rw [if_neg (fun h : j' = j' ∧ c = (F.cur + 1) % 2 => hc h.2),
          if_neg (fun h : j' ∈ insert j' D ∧ c = (F.cur + 1) % 2 => hc h.2), hls,
          if_neg (fun h : j' ∈ D ∧ c = (F.cur + 1) % 2 => hc h.2)]
      · rw [if_neg (fun h : j' = j ∧ c = (F.cur + 1) % 2 => hj' h.1), hls]
        simp only [Finset.mem_insert, hj', false_or]
    by_cases hr : |value F j - dtau * ((if 0 < at0 s.2 j then at0 s.1 j / at0 s.2 j else 0)
        - signOf eps (value F j))| < eps
    · rw [if_pos hr]; exact key _
    · rw [if_neg hr]; exact key _
  · rintro t ⟨hd0, hd1, hls⟩
    rw [Res.sat_pure]
    refine ⟨⟨⟨h.conn, h.verts, h.vol, hB.l1, hB.l2, hd0, hd1, Nat.mod_lt _ (by omega), h.elem, h.nodal⟩,
      rfl, rfl, rfl, rfl, ?_⟩, if 0 < at0 s.2 i then at0 s.1 i / at0 s.2 i else 0, ?_, ?_⟩
    · intro j
      dsimp only
      rw [hls, if_neg (fun hc => hne hc.2)]
      rfl
    · change t.1.e i ((F.cur + 1) % 2) = _
      rw [hls, if_pos ⟨mem_range.2 hiv, rfl⟩]
    · by_cases hq : 0 < at0 s.2 i
      · rw [if_pos hq]
        exact Or.inr (hB.quotient hq)
      · rw [if_neg hq]
        exact Or.inl rfl

/-- The result of a computation has all the properties it has one by one. -/
theorem sat_forall {α ι : Type} {r : Res α} {Q : α → Prop} {P : ι → α → Prop} (h0 : r.Sat Q)
    (h : ∀ i, r.Sat (P i)) : r.Sat fun a => Q a ∧ ∀ i, P i a := by
  obtain ⟨a, ha, hq⟩ := h0
  refine ⟨a, ha, hq, fun i => ?_⟩
  obtain ⟨b, hb, hp⟩ := h i
  rw [ha] at hb
  cases hb
  exact hp

/-- Element `e` contains node `i`. -/
def Around (M : Mesh) (i e : Nat) : Prop := e < M.nelems ∧ ∃ n, n < M.dim + 1 ∧ node M e n = i

/-! ## C107 -/

section Claims

variable {M : Mesh} {F : Fields} (h : WF M F) {o1 o2 oe on : List Nat} (h1 : IsSchedule o1 M.nverts)
  (h2 : IsSchedule o2 M.nverts) (he : IsSchedule oe M.nelems) (hn : IsSchedule on M.nverts)
include h h1 h2 he hn

/-- What every step keeps; it holds for every mesh, so a step never reads or writes outside its data. -/
theorem C107_step (dt : ℝ) : (evolve M o1 o2 oe on dt F).Sat fun G => Kept M F G := by
  by_cases hv : 0 < M.nverts
  · classical
    obtain ⟨b, hb⟩ : ∃ b, ∀ e ∈ range M.nelems, |speedOf M F e * steepness M (value F) e| ≤ b :=
      ⟨∑ e ∈ range M.nelems, |speedOf M F e * steepness M (value F) e|, fun e he =>
        Finset.single_le_sum (f := fun e => |speedOf M F e * steepness M (value F) e|)
          (fun _ _ => abs_nonneg _) he⟩
    exact (evolve_ok h h1 h2 he hn dt hv (lo := -b) (hi := b) (fun e n he _ _ _ =>
      abs_le.1 (hb e (mem_range.2 he)))).mono fun G hG => hG.1
  · have h0 : M.nverts = 0 := by omega
    have hne : M.nelems = 0 := by
      by_contra hc
      have := node_lt h (e := 0) (n := 0) (by omega) (by omega)
      omega
    have e1 : o1 = [] := by simpa [IsSchedule, h0] using h1
    have e2 : o2 = [] := by simpa [IsSchedule, h0] using h2
    have e3 : oe = [] := by simpa [IsSchedule, hne] using he
    have e4 : on = [] := by simpa [IsSchedule, h0] using hn
    subst e1 e2 e3 e4
    unfold evolve zeroOut
    simp only [parFor, Res.ok_bind, Res.pure_eq, Res.sat_ok]
    exact ⟨⟨h.conn, h.verts, h.vol, h.rhs, h.norm, h.d0, h.d1, Nat.mod_lt _ (by omega), h.elem, h.nodal⟩,
      rfl, rfl, rfl, rfl, fun _ => rfl⟩

/-- **C107.** A step moves every node by the time step times a rate between the smallest and the largest
speed times steepness of the elements around it, or not at all, for every mesh and schedule. -/
theorem C107_speed (dt : ℝ) (lo hi : Nat → ℝ)
    (hb : ∀ i e, Around M i e → lo i ≤ speedOf M F e * steepness M (value F) e ∧
      speedOf M F e * steepness M (value F) e ≤ hi i) :
    (evolve M o1 o2 oe on dt F).Sat fun G => Kept M F G ∧ ∀ i, i < M.nverts →
      ∃ v, value G i = value F i - dt * v ∧ (v = 0 ∨ lo i ≤ v ∧ v ≤ hi i) := by
  refine sat_forall (P := fun i G => i < M.nverts → ∃ v, value G i = value F i - dt * v ∧
    (v = 0 ∨ lo i ≤ v ∧ v ≤ hi i)) (C107_step h h1 h2 he hn dt) (fun i => ?_)
  by_cases hi : i < M.nverts
  · refine (evolve_ok h h1 h2 he hn dt hi (fun e n he hn hni _ => hb i e ⟨he, n, hn, hni⟩)).mono ?_
    rintro G ⟨-, v, hv, hv', -⟩ -
    exact ⟨v, hv, hv'⟩
  · exact (C107_step h h1 h2 he hn dt).mono fun G _ hc => absurd hc hi

/-- **C107.** With speeds that are not negative, the level set does not grow at any node: what is
burned stays burned. -/
theorem C107_outward (dt : ℝ) (hdt : 0 ≤ dt) (hs : ∀ e, e < M.nelems → 0 ≤ speedOf M F e) :
    (evolve M o1 o2 oe on dt F).Sat fun G => ∀ i, i < M.nverts → value G i ≤ value F i := by
  classical
  refine (C107_speed h h1 h2 he hn dt (fun _ => 0)
    (fun _ => ∑ e ∈ range M.nelems, speedOf M F e * steepness M (value F) e) ?_).mono ?_
  · rintro i e ⟨he, -⟩
    have hp : ∀ e ∈ range M.nelems, 0 ≤ speedOf M F e * steepness M (value F) e := fun e he =>
      mul_nonneg (hs e (mem_range.1 he)) (Real.sqrt_nonneg _)
    exact ⟨hp e (mem_range.2 he),
      Finset.single_le_sum (f := fun e => speedOf M F e * steepness M (value F) e) hp (mem_range.2 he)⟩
  · rintro G ⟨-, hG⟩ i hi
    obtain ⟨v, hv, h0⟩ := hG i hi
    have : 0 ≤ v := by rcases h0 with rfl | h0; exacts [le_rfl, h0.1]
    rw [hv]
    nlinarith

/-- **C107.** If speed times steepness is the same number in all elements around a node, the node moves
by exactly this rate or not at all. -/
theorem C107_planar (dt c : ℝ) {i : Nat} (hi : i < M.nverts)
    (hc : ∀ e, Around M i e → speedOf M F e * steepness M (value F) e = c) :
    (evolve M o1 o2 oe on dt F).Sat fun G => value G i = value F i ∨ value G i = value F i - dt * c := by
  refine (evolve_ok h h1 h2 he hn dt hi (lo := c) (hi := c)
    (fun e n he hn hni _ => ⟨(hc e ⟨he, n, hn, hni⟩).ge, (hc e ⟨he, n, hn, hni⟩).le⟩)).mono ?_
  rintro G ⟨-, v, hv, h0 | h0, -⟩
  · left; rw [hv, h0, mul_zero, sub_zero]
  · right; rw [hv, le_antisymm h0.2 h0.1]

/-- **C107.** A node at which the level set is smallest in all elements around it is not moved by a front
that moves outward, and one at which it is largest is not moved by a front that moves inward: no new
extremum appears. -/
theorem C107_extremum (dt : ℝ) {i : Nat} (hi : i < M.nverts)
    (hx : (∀ e, Around M i e → 0 ≤ speedOf M F e ∧ ∀ n, n < M.dim + 1 → value F i ≤ value F (node M e n)) ∨
      (∀ e, Around M i e → speedOf M F e ≤ 0 ∧ ∀ n, n < M.dim + 1 → value F (node M e n) ≤ value F i)) :
    (evolve M o1 o2 oe on dt F).Sat fun G => value G i = value F i := by
  refine (evolve_ok h h1 h2 he hn dt hi (lo := 0) (hi := 0) ?_).mono ?_
  · intro e n he hn hni hw
    exfalso
    refine absurd hw (not_lt.2 ?_)
    unfold weight
    rcases hx with hx | hx
    · obtain ⟨hs, hm⟩ := hx e ⟨he, n, hn, hni⟩
      refine alpha_min (h.vol e he) hs (fun j hj => ?_)
      rw [locals_eq hn, locals_eq hj, hni]
      exact hm j hj
    · obtain ⟨hs, hm⟩ := hx e ⟨he, n, hn, hni⟩
      refine alpha_max (h.vol e he) hs (fun j hj => ?_)
      rw [locals_eq hn, locals_eq hj, hni]
      exact hm j hj
  · rintro G ⟨-, v, hv, h0, -⟩
    have : v = 0 := by rcases h0 with h0 | h0; exacts [h0, le_antisymm h0.2 h0.1]
    rw [hv, this, mul_zero, sub_zero]

/-- **C107.** The front does move: if the gradients of the basis functions of an element add up to zero,
the level set is not flat in it, speeds and the time step are positive, some node of the element goes
down. -/
theorem C107_moves (dt : ℝ) (hdt : 0 < dt) (hs : ∀ e, e < M.nelems → 0 < speedOf M F e) {e : Nat}
    (hel : e < M.nelems) (hg : ∀ k, k < M.dim → ∑ n ∈ range (M.dim + 1), M.grad e n k = 0)
    (hflat : steepness M (value F) e ≠ 0) :
    (evolve M o1 o2 oe on dt F).Sat fun G => ∃ n, n < M.dim + 1 ∧
      value G (node M e n) < value F (node M e n) := by
  classical
  have hsum := alpha_sum (d := M.dim) (g := M.grad e) (φ := locals M F e) (h.vol e hel).ne'
    (hs e hel).ne' (by rw [slope_steepness]; exact hflat) hg
  obtain ⟨n, hnr, hw⟩ : ∃ n ∈ range (M.dim + 1), 0 < weight M F (speedOf M F e) e n := by
    by_contra hcon
    simp only [not_exists, not_and, not_lt] at hcon
    have := Finset.sum_nonpos hcon
    unfold weight at this
    rw [hsum] at this
    linarith
  have hnd := mem_range.1 hnr
  set i := node M e n with hidef
  let S := (range M.nelems).filter fun e' => ∃ n, n < M.dim + 1 ∧ node M e' n = i ∧
    0 < weight M F (speedOf M F e') e' n
  have heS : e ∈ S := Finset.mem_filter.2 ⟨mem_range.2 hel, n, hnd, rfl, hw⟩
  obtain ⟨m, hmS, hmin⟩ := Finset.exists_min_image S (fun e => speedOf M F e * steepness M (value F) e) ⟨e, heS⟩
  obtain ⟨M', hM'S, hmax⟩ := Finset.exists_max_image S (fun e => speedOf M F e * steepness M (value F) e) ⟨e, heS⟩
  have hposm : 0 < speedOf M F m * steepness M (value F) m := by
    obtain ⟨hmr, k, hk, -, hwk⟩ := Finset.mem_filter.1 hmS
    refine mul_pos (hs m (mem_range.1 hmr)) (lt_of_le_of_ne (Real.sqrt_nonneg _) (Ne.symm ?_))
    intro h0
    rw [← slope_steepness] at h0
    unfold weight alpha at hwk
    have : coeff M.dim (M.grad m) (locals M F m) (M.vol m) (speedOf M F m) k = 0 := by
      unfold coeff
      rw [h0]
      simp
    rw [this] at hwk
    simp at hwk
  refine (evolve_ok h h1 h2 he hn dt (node_lt h hel hnd) (i := i)
    (lo := speedOf M F m * steepness M (value F) m) (hi := speedOf M F M' * steepness M (value F) M') ?_).mono ?_
  · intro e' n' he' hn' hni' hw'
    have : e' ∈ S := Finset.mem_filter.2 ⟨mem_range.2 he', n', hn', hni', hw'⟩
    exact ⟨hmin e' this, hmax e' this⟩
  · rintro G ⟨-, v, hv, -, hpos⟩
    refine ⟨n, hnd, ?_⟩
    have := (hpos ⟨e, n, hel, hnd, rfl, hw⟩).1
    have hv0 : 0 < v := lt_of_lt_of_le hposm this
    have := mul_pos hdt hv0
    change value G i < value F i
    rw [hv]
    linarith

/-! ### Reinitialisation -/

omit h h1 h2 he hn in
theorem signOf_eq (eps x : ℝ) : signOf eps x = x / Real.sqrt (x ^ 2 + eps ^ 2) := by
  unfold signOf
  rw [pow_two, pow_two]

/-- **C107.** One pass of the reinitialisation: the value of a node changes by the pseudo time step times
its sign times one minus a steepness, which is zero or between the smallest and largest steepness of
the elements around the node. -/
theorem C107_reinit (eps dtau : ℝ) (lo hi : Nat → ℝ)
    (hb : ∀ i e, Around M i e → lo i ≤ steepness M (value F) e ∧ steepness M (value F) e ≤ hi i)
    {i : Nat} (hi' : i < M.nverts) :
    (eikonal M o1 o2 oe on eps dtau F).Sat fun G => Kept M F G.1 ∧
      ∃ g, value G.1 i = value F i + dtau * (value F i / Real.sqrt (value F i ^ 2 + eps ^ 2)) * (1 - g) ∧
        (g = 0 ∨ lo i ≤ g ∧ g ≤ hi i) := by
  rw [← signOf_eq]
  set σ := signOf eps (value F i) with hσ
  rcases lt_trichotomy σ 0 with hneg | hzero | hpos
  · refine (eikonal_ok h h1 h2 he hn eps dtau hi' (lo := σ * hi i) (hi := σ * lo i) ?_).mono ?_
    · intro e n he hn hni _
      obtain ⟨ha, hb⟩ := hb i e ⟨he, n, hn, hni⟩
      exact ⟨mul_le_mul_of_nonpos_left hb hneg.le, mul_le_mul_of_nonpos_left ha hneg.le⟩
    · rintro G ⟨hk, v, hv, h0⟩
      refine ⟨hk, v / σ, ?_, ?_⟩
      · have hc : σ * (v / σ) = v := mul_div_cancel₀ v hneg.ne
        rw [hv, ← hσ]
        linear_combination dtau * hc
      · rcases h0 with rfl | ⟨ha, hb⟩
        · left; simp
        · right
          constructor
          · rw [le_div_iff_of_neg hneg, mul_comm]; exact hb
          · rw [div_le_iff_of_neg hneg, mul_comm]; exact ha
  · refine (eikonal_ok h h1 h2 he hn eps dtau hi' (lo := 0) (hi := 0) ?_).mono ?_
    · intro e n he hn hni _
      rw [← hσ, hzero, zero_mul]
      exact ⟨le_rfl, le_rfl⟩
    · rintro G ⟨hk, v, hv, h0⟩
      have hv0 : v = 0 := by rcases h0 with h0 | h0; exacts [h0, le_antisymm h0.2 h0.1]
      refine ⟨hk, 0, ?_, Or.inl rfl⟩
      rw [hv, ← hσ, hv0, hzero]; ring
  · refine (eikonal_ok h h1 h2 he hn eps dtau hi' (lo := σ * lo i) (hi := σ * hi i) ?_).mono ?_
    · intro e n he hn hni _
      obtain ⟨ha, hb⟩ := hb i e ⟨he, n, hn, hni⟩
      exact ⟨mul_le_mul_of_nonneg_left ha hpos.le, mul_le_mul_of_nonneg_left hb hpos.le⟩
    · rintro G ⟨hk, v, hv, h0⟩
      refine ⟨hk, v / σ, ?_, ?_⟩
      · have hc : σ * (v / σ) = v := mul_div_cancel₀ v hpos.ne'
        rw [hv, ← hσ]
        linear_combination dtau * hc
      · rcases h0 with rfl | ⟨ha, hb⟩
        · left; simp
        · right
          constructor
          · rw [le_div_iff₀ hpos, mul_comm]; exact ha
          · rw [div_le_iff₀ hpos, mul_comm]; exact hb

end Claims

end Plato.LevelSet
