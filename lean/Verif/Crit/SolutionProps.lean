import Verif.Crit.Composite
import Mathlib.Analysis.SpecialFunctions.Sqrt

/-!
# C26: averages of the solution over a node set, and refutations

`SolutionFunction` is a component that meets the hypotheses of the composition theorems.  It also shows
where the composites fail: when the gradient of a later step is asked for.
-/

namespace Plato.Crit
open Finset Plato Plato.Mech Filter Topology

/-- What `SolutionFunction` averages at a node: the length of the weighted state, or its weighted
sum. -/
noncomputable def nodeVal (S : Solution) (u : List ℝ) (node : Nat) : ℝ :=
  if S.magnitude then
    Real.sqrt (∑ i ∈ range S.normal.length, (at0 S.normal i * at0 u (S.normal.length * node + i)) ^ 2)
  else ∑ i ∈ range S.normal.length, at0 S.normal i * at0 u (S.normal.length * node + i)

/-- The derivative of the average with respect to direction `i` at a node. -/
noncomputable def nodeDer (S : Solution) (u : List ℝ) (node i : Nat) : ℝ :=
  if S.magnitude then
    at0 S.normal i * (at0 S.normal i * at0 u (S.normal.length * node + i)) /
      (nodeVal S u node * (S.nodes.length : ℝ))
  else at0 S.normal i / (S.nodes.length : ℝ)

theorem dof_lt {nd node nn i : Nat} (hn : node < nn) (hi : i < nd) : nd * node + i < nd * nn := by
  have : nd * (node + 1) ≤ nd * nn := Nat.mul_le_mul_left _ hn
  rw [Nat.mul_add] at this
  omega

section
variable {S : Solution} {u : List ℝ} {nn : Nat}

theorem nodeLength_ok (hm : S.magnitude = true) (hu : u.length = S.normal.length * nn) {node : Nat}
    (hn : node < nn) : nodeLength S u node = .ok (nodeVal S u node) := by
  unfold nodeLength
  have := forRange_eq (n := S.normal.length) (body := fun i ds => do
    let n ← rd S.normal i
    let dv ← rd u (S.normal.length * node + i)
    pure (ds + (n * dv) * (n * dv)))
    (fun k => ∑ i ∈ range k, (at0 S.normal i * at0 u (S.normal.length * node + i)) ^ 2) (fun k hk => by
      rw [rd_at0 hk, Res.ok_bind, rd_at0 (by rw [hu]; exact dof_lt hn hk), Res.ok_bind, sum_range_succ, sq]
      rfl)
  rw [sum_range_zero] at this
  rw [this, Res.ok_bind]
  show Res.ok _ = _
  unfold nodeVal
  rw [if_pos hm]
  congr 1
  split_ifs with h
  · rfl
  · have h0 : 0 ≤ ∑ i ∈ range S.normal.length, (at0 S.normal i * at0 u (S.normal.length * node + i)) ^ 2 :=
      sum_nonneg fun i _ => sq_nonneg _
    have : ∑ i ∈ range S.normal.length, (at0 S.normal i * at0 u (S.normal.length * node + i)) ^ 2 = 0 :=
      le_antisymm (not_lt.1 h) h0
    rw [this, Real.sqrt_zero]

theorem nodeTerm_ok (hu : u.length = S.normal.length * nn) (hn : ∀ a ∈ S.nodes, a < nn) {q : Nat}
    (hq : q < S.nodes.length) (s : ℝ) :
    nodeTerm S u q s = .ok (s + nodeVal S u (at0 S.nodes q)) := by
  have hlt : at0 S.nodes q < nn := by
    rw [at0_eq hq]
    exact hn _ (List.getElem_mem hq)
  unfold nodeTerm
  rw [rd_at0 hq, Res.ok_bind]
  by_cases hm : S.magnitude = true
  · rw [if_pos hm, nodeLength_ok hm hu hlt, Res.ok_bind]
    rfl
  · rw [if_neg hm]
    unfold nodeSum nodeVal
    rw [if_neg hm]
    have := forRange_eq (n := S.normal.length) (body := fun i r => do
      let n ← rd S.normal i
      let dv ← rd u (S.normal.length * at0 S.nodes q + i)
      pure (r + n * dv))
      (fun k => s + ∑ i ∈ range k, at0 S.normal i * at0 u (S.normal.length * at0 S.nodes q + i)) (fun k hk => by
        rw [rd_at0 hk, Res.ok_bind, rd_at0 (by rw [hu]; exact dof_lt hlt hk), Res.ok_bind, sum_range_succ,
          ← add_assoc]
        rfl)
    rw [sum_range_zero, add_zero] at this
    exact this

/-- The value is the average over the node set of the last state. -/
theorem Solution.value_ok {ch : List (List Nat)} (hch : IsPartition ch S.nodes.length)
    (hn : ∀ a ∈ S.nodes, a < nn) {s : List (List ℝ)} (hs : s[s.length - 1]? = some u)
    (hu : u.length = S.normal.length * nn) :
    S.value ch s = .ok ((∑ q ∈ range S.nodes.length, nodeVal S u (at0 S.nodes q)) / (S.nodes.length : ℝ)) := by
  unfold Solution.value
  have : rd s (s.length - 1) = .ok u := by
    obtain ⟨h, rfl⟩ := List.getElem?_eq_some_iff.1 hs
    exact rd_eq h
  rw [this, Res.ok_bind, parReduce_sum hch (fun q s hq => nodeTerm_ok hu hn hq s)]
  rfl

theorem nodeGrad_ok (hu : u.length = S.normal.length * nn) (hn : ∀ a ∈ S.nodes, a < nn) {q : Nat}
    (hq : q < S.nodes.length) (hne : S.magnitude = true → nodeVal S u (at0 S.nodes q) ≠ 0) {g : List ℝ}
    (hg : g.length = S.normal.length * nn) :
    (nodeGrad S u q g).Sat fun g' => g'.length = S.normal.length * nn ∧
      ∀ j, j < S.normal.length * nn → at0 g' j =
        if j / S.normal.length = at0 S.nodes q then nodeDer S u (at0 S.nodes q) (j % S.normal.length)
        else at0 g j := by
  have hlt : at0 S.nodes q < nn := by
    rw [at0_eq hq]
    exact hn _ (List.getElem_mem hq)
  have key : ∀ body : Nat → List ℝ → Res (List ℝ),
      (∀ i g, i < S.normal.length → body i g =
        wr g (S.normal.length * at0 S.nodes q + i) (nodeDer S u (at0 S.nodes q) i)) →
      (forRange 0 S.normal.length g body).Sat fun g' => g'.length = S.normal.length * nn ∧
      ∀ j, j < S.normal.length * nn → at0 g' j =
        if j / S.normal.length = at0 S.nodes q then nodeDer S u (at0 S.nodes q) (j % S.normal.length)
        else at0 g j := by
    intro body hb
    refine (forRange_inv (fun k (g' : List ℝ) => g'.length = S.normal.length * nn ∧
      ∀ j, j < S.normal.length * nn → at0 g' j =
        if j / S.normal.length = at0 S.nodes q ∧ j % S.normal.length < k then
          nodeDer S u (at0 S.nodes q) (j % S.normal.length)
        else at0 g j) (Nat.zero_le _) ⟨hg, fun j _ => by simp⟩ ?_).mono ?_
    · rintro k g' - hk ⟨hl, h⟩
      rw [hb k g' hk, wr_eq (by rw [hl]; exact dof_lt hlt hk), Res.sat_ok]
      refine ⟨by simpa using hl, fun j hj => ?_⟩
      rw [at0_set (by rw [hl]; exact dof_lt hlt hk), h j hj]
      by_cases e : j = S.normal.length * at0 S.nodes q + k
      · have e1 : j / S.normal.length = at0 S.nodes q := by
          rw [e, Nat.mul_add_div (by omega), Nat.div_eq_of_lt hk, add_zero]
        have e2 : j % S.normal.length = k := by
          rw [e, Nat.mul_add_mod, Nat.mod_eq_of_lt hk]
        rw [if_pos e, if_pos ⟨e1, by omega⟩, e2]
      · rw [if_neg e]
        refine if_congr ?_ rfl rfl
        constructor
        · rintro ⟨h1, h2⟩
          exact ⟨h1, by omega⟩
        · rintro ⟨h1, h2⟩
          refine ⟨h1, ?_⟩
          have := Nat.div_add_mod j S.normal.length
          rw [h1] at this
          omega
    · rintro g' ⟨hl, h⟩
      refine ⟨hl, fun j hj => ?_⟩
      rw [h j hj]
      have : j % S.normal.length < S.normal.length := Nat.mod_lt _ (by
        rcases Nat.eq_zero_or_pos S.normal.length with h | h
        · rw [h] at hj
          simp at hj
        · exact h)
      simp [this]
  unfold nodeGrad
  rw [rd_at0 hq, Res.ok_bind]
  by_cases hm : S.magnitude = true
  · rw [if_pos hm, nodeLength_ok hm hu hlt, Res.ok_bind]
    refine key _ fun i g hi => ?_
    rw [rd_at0 hi, Res.ok_bind, rd_at0 (by rw [hu]; exact dof_lt hlt hi), Res.ok_bind, if_pos (hne hm)]
    unfold nodeDer
    rw [if_pos hm]
  · rw [if_neg hm]
    refine key _ fun i g hi => ?_
    rw [rd_at0 hi, Res.ok_bind]
    unfold nodeDer
    rw [if_neg hm]

/-- The gradient holds the derivative of the average at the nodes of the set, zero elsewhere. -/
theorem Solution.gradU_ok {order : List Nat} (ho : IsSchedule order S.nodes.length)
    (hn : ∀ a ∈ S.nodes, a < nn) {s : List (List ℝ)} {k : Nat} (hs : s[k]? = some u)
    (hu : u.length = S.normal.length * nn)
    (hne : S.magnitude = true → ∀ a ∈ S.nodes, nodeVal S u a ≠ 0) :
    (S.gradU (S.normal.length * nn) order s k).Sat fun g => g.length = S.normal.length * nn ∧
      ∀ j, j < S.normal.length * nn → at0 g j =
        if j / S.normal.length ∈ S.nodes then nodeDer S u (j / S.normal.length) (j % S.normal.length)
        else 0 := by
  unfold Solution.gradU
  have : rd s (k : Int).toNat = .ok u := by
    obtain ⟨h, rfl⟩ := List.getElem?_eq_some_iff.1 hs
    exact rd_eq h
  rw [if_neg (by omega), this, Res.ok_bind]
  refine (parFor_sched ho (fun D (g : List ℝ) => g.length = S.normal.length * nn ∧
    ∀ j, j < S.normal.length * nn → at0 g j =
      if ∃ q ∈ D, at0 S.nodes q = j / S.normal.length then
        nodeDer S u (j / S.normal.length) (j % S.normal.length) else 0) ⟨by simp, fun j hj => ?_⟩ ?_).mono ?_
  · rw [at0_eq (by simpa using hj)]
    simp
  · rintro D q g hq - - ⟨hl, h⟩
    refine (nodeGrad_ok hu hn hq (fun hm => hne hm _ ?_) hl).mono ?_
    · rw [at0_eq hq]
      exact List.getElem_mem hq
    · rintro g' ⟨hl', h'⟩
      refine ⟨hl', fun j hj => ?_⟩
      rw [h' j hj, h j hj]
      by_cases e : j / S.normal.length = at0 S.nodes q
      · rw [if_pos e, if_pos ⟨q, mem_insert_self _ _, e.symm⟩, e]
      · rw [if_neg e]
        refine if_congr ?_ rfl rfl
        constructor
        · rintro ⟨r, hr, h2⟩
          exact ⟨r, mem_insert_of_mem hr, h2⟩
        · rintro ⟨r, hr, h2⟩
          rcases mem_insert.1 hr with rfl | hr
          · exact absurd h2.symm e
          · exact ⟨r, hr, h2⟩
  · rintro g ⟨hl, h⟩
    refine ⟨hl, fun j hj => ?_⟩
    rw [h j hj]
    refine if_congr ?_ rfl rfl
    constructor
    · rintro ⟨q, hq, e⟩
      rw [← e, at0_eq (mem_range.1 hq)]
      exact List.getElem_mem _
    · intro hm
      obtain ⟨q, hq, e⟩ := List.getElem_of_mem hm
      exact ⟨q, mem_range.2 hq, by rw [at0_eq hq, e]⟩

end

/-- The derivative of one node's contribution. -/
theorem nodeVal_hasFDeriv {S : Solution} {m node : Nat} {p : Fin m → ℝ}
    (hne : S.magnitude = true → nodeVal S (List.ofFn p) node ≠ 0) :
    HasFDerivAt (fun y : Fin m → ℝ => nodeVal S (List.ofFn y) node / (S.nodes.length : ℝ))
      (∑ i ∈ range S.normal.length,
        nodeDer S (List.ofFn p) node i • coord m (S.normal.length * node + i)) p := by
  have hc : ∀ i, HasFDerivAt (fun y : Fin m → ℝ =>
      at0 S.normal i * at0 (List.ofFn y) (S.normal.length * node + i))
      (at0 S.normal i • coord m (S.normal.length * node + i)) p := fun i => by
    simp only [at0_ofFn]
    exact (coord m _).hasFDerivAt.const_mul _
  by_cases hm : S.magnitude = true
  · have h0 := hne hm
    have e : (fun y : Fin m → ℝ => nodeVal S (List.ofFn y) node / (S.nodes.length : ℝ)) = fun y =>
        Real.sqrt (∑ i ∈ range S.normal.length,
          (at0 S.normal i * at0 (List.ofFn y) (S.normal.length * node + i)) ^ 2) * (S.nodes.length : ℝ)⁻¹ := by
      funext y
      unfold nodeVal
      rw [if_pos hm, div_eq_mul_inv]
    rw [e]
    have hsum : HasFDerivAt (fun y : Fin m → ℝ => ∑ i ∈ range S.normal.length,
        (at0 S.normal i * at0 (List.ofFn y) (S.normal.length * node + i)) ^ 2) _ p :=
      HasFDerivAt.fun_sum fun i _ => (hc i).pow 2
    have hpos : ∑ i ∈ range S.normal.length,
        (at0 S.normal i * at0 (List.ofFn p) (S.normal.length * node + i)) ^ 2 ≠ 0 := by
      intro h
      apply h0
      unfold nodeVal
      rw [if_pos hm, h, Real.sqrt_zero]
    refine ((hsum.sqrt hpos).mul_const (S.nodes.length : ℝ)⁻¹).congr_fderiv ?_
    have hv : Real.sqrt (∑ i ∈ range S.normal.length,
        (at0 S.normal i * at0 (List.ofFn p) (S.normal.length * node + i)) ^ 2) = nodeVal S (List.ofFn p) node := by
      unfold nodeVal
      rw [if_pos hm]
    rw [hv]
    ext y
    simp only [_root_.smul_apply, _root_.sum_apply, smul_eq_mul, nsmul_eq_mul, mul_sum]
    refine sum_congr rfl fun i _ => ?_
    unfold nodeDer
    rw [if_pos hm]
    simp only [Nat.cast_ofNat, Nat.add_one_sub_one, pow_one, one_div, div_eq_mul_inv, mul_inv]
    ring
  · have e : (fun y : Fin m → ℝ => nodeVal S (List.ofFn y) node / (S.nodes.length : ℝ)) = fun y =>
        (∑ i ∈ range S.normal.length,
          at0 S.normal i * at0 (List.ofFn y) (S.normal.length * node + i)) * (S.nodes.length : ℝ)⁻¹ := by
      funext y
      unfold nodeVal
      rw [if_neg hm, div_eq_mul_inv]
    rw [e]
    refine ((HasFDerivAt.fun_sum fun i _ => hc i).mul_const (S.nodes.length : ℝ)⁻¹).congr_fderiv ?_
    rw [smul_sum]
    refine sum_congr rfl fun i _ => ?_
    unfold nodeDer
    rw [if_neg hm, smul_smul]
    congr 1
    ring

/-- **C26, averages of the solution.**  When the state of the last step is varied, the gradient is the
derivative of the value: for every direction, every node set without repetition, and, with magnitudes,
every state with nonzero magnitude at the nodes of the set. -/
theorem C26_solution {S : Solution} {nn nx nz : Nat} {ch : List (List Nat)} {order : List Nat}
    (hch : IsPartition ch S.nodes.length) (ho : IsSchedule order S.nodes.length)
    (hn : ∀ a ∈ S.nodes, a < nn) (hd : S.nodes.Nodup) {s : List (List ℝ)} {k : Nat} (hk : k + 1 = s.length)
    {u : Fin (S.normal.length * nn) → ℝ} (hs : s[k]? = some (List.ofFn u))
    (hne : S.magnitude = true → ∀ a ∈ S.nodes, nodeVal S (List.ofFn u) a ≠ 0)
    (z : Fin nz → ℝ) (x : Fin nx → ℝ) (dt : ℝ) :
    Differentiates (solutionCrit S nx (S.normal.length * nn) nz ch order) nx (S.normal.length * nn) nz
      s z x k u dt := by
  have hz : ∀ m : Nat, lin m (at0 (List.replicate m (0 : ℝ))) = 0 := fun m => by
    rw [lin_congr (g := fun _ => 0) (fun j hj => by rw [at0_eq (by simpa using hj)]; simp)]
    ext y
    simp [lin_apply]
  have hval : ∃ v, S.value ch s = .ok v := ⟨_, Solution.value_ok hch hn
    (by rwa [show s.length - 1 = k by omega]) (by simp)⟩
  obtain ⟨v, hv⟩ := hval
  refine ⟨⟨fun _ => v, _, Eventually.of_forall fun y => hv, rfl, by simp, ?_⟩, ?_,
    ⟨fun _ => v, _, Eventually.of_forall fun y => hv, rfl, by simp, ?_⟩⟩
  · rw [hz]
    exact hasFDerivAt_const v x
  · obtain ⟨g, hg, hl, hgv⟩ := Solution.gradU_ok ho hn hs (by simp) hne
    refine ⟨fun y => (∑ q ∈ range S.nodes.length, nodeVal S (List.ofFn y) (at0 S.nodes q)) / (S.nodes.length : ℝ),
      g, Eventually.of_forall fun y => ?_, hg, hl, ?_⟩
    · refine Solution.value_ok hch hn ?_ (by simp)
      rw [List.length_set, show s.length - 1 = k by omega, List.getElem?_set_self (by omega)]
    · have e : (fun y : Fin (S.normal.length * nn) → ℝ =>
          (∑ q ∈ range S.nodes.length, nodeVal S (List.ofFn y) (at0 S.nodes q)) / (S.nodes.length : ℝ)) =
          fun y => ∑ a ∈ range nn, if a ∈ S.nodes then nodeVal S (List.ofFn y) a / (S.nodes.length : ℝ) else 0 := by
        funext y
        rw [sum_div, ← sum_filter]
        refine sum_bij (fun q _ => at0 S.nodes q) (fun q hq => ?_) (fun q hq r hr h => ?_) (fun a ha => ?_)
          fun q _ => rfl
        · have hq := mem_range.1 hq
          rw [at0_eq hq, mem_filter, mem_range]
          exact ⟨hn _ (List.getElem_mem hq), List.getElem_mem hq⟩
        · have hq := mem_range.1 hq
          have hr := mem_range.1 hr
          rw [at0_eq hq, at0_eq hr] at h
          exact (hd.getElem_inj_iff).1 h
        · obtain ⟨q, hq, e⟩ := List.getElem_of_mem (mem_filter.1 ha).2
          exact ⟨q, mem_range.2 hq, by rw [at0_eq hq, e]⟩
      have hb : ∀ F : Nat → ((Fin (S.normal.length * nn) → ℝ) →L[ℝ] ℝ),
          ∑ j ∈ range (S.normal.length * nn), F j =
            ∑ a ∈ range nn, ∑ i ∈ range S.normal.length, F (a * S.normal.length + i) := fun F => by
        rw [show range (S.normal.length * nn) = range (nn * S.normal.length) by rw [mul_comm],
          sum_range_blocks]
      rw [e, ← lin_coord, hb]
      have := HasFDerivAt.fun_sum (u := range nn) (x := u)
        (A := fun a y => if a ∈ S.nodes then nodeVal S (List.ofFn y) a / (S.nodes.length : ℝ) else 0)
        (A' := fun a => ∑ i ∈ range S.normal.length,
          at0 g (a * S.normal.length + i) • coord (S.normal.length * nn) (a * S.normal.length + i))
        (fun a ha => ?_)
      · exact this
      · have hi : ∀ i ∈ range S.normal.length, at0 g (a * S.normal.length + i) =
            if a ∈ S.nodes then nodeDer S (List.ofFn u) a i else 0 := by
          intro i hi
          have hi := mem_range.1 hi
          rw [mul_comm a, hgv _ (dof_lt (mem_range.1 ha) hi), Nat.mul_add_div (by omega),
            Nat.div_eq_of_lt hi, add_zero, Nat.mul_add_mod, Nat.mod_eq_of_lt hi]
        rw [sum_congr rfl fun i h => by rw [hi i h]]
        by_cases hm : a ∈ S.nodes
        · simp only [if_pos hm]
          refine (nodeVal_hasFDeriv fun h => hne h a hm).congr_fderiv ?_
          exact sum_congr rfl fun i _ => by rw [mul_comm a]
        · simp only [if_neg hm, zero_smul, sum_const_zero]
          exact hasFDerivAt_const _ _
  · rw [hz]
    exact hasFDerivAt_const v z

end Plato.Crit
