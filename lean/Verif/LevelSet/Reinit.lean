import Verif.LevelSet.Props
import Mathlib.Tactic.IntervalCases

/-!
# C107: reinitialisation, area and rate; cases
-/

namespace Plato.LevelSet

open Finset

/-! ## Signs -/

/-- Schedules of one pass over the mesh. -/
structure Sched.Ok (M : Mesh) (c : Sched) : Prop where
  h1 : IsSchedule c.o1 M.nverts
  h2 : IsSchedule c.o2 M.nverts
  he : IsSchedule c.oe M.nelems
  hn : IsSchedule c.on M.nverts

/-- Two numbers have the same sign. -/
def SameSign (x y : ℝ) : Prop := (0 < y ↔ 0 < x) ∧ (y < 0 ↔ x < 0)

theorem SameSign.refl (x : ℝ) : SameSign x x := ⟨Iff.rfl, Iff.rfl⟩

theorem SameSign.trans {x y z : ℝ} (h : SameSign x y) (h' : SameSign y z) : SameSign x z :=
  ⟨h'.1.trans h.1, h'.2.trans h.2⟩

theorem SameSign.mul {x c : ℝ} (hc : 0 < c) : SameSign x (x * c) := by
  constructor
  · exact ⟨fun h => by by_contra hx; nlinarith [mul_nonneg (sub_nonneg.2 (not_lt.1 hx)) hc.le],
      fun h => mul_pos h hc⟩
  · exact ⟨fun h => by by_contra hx; nlinarith [mul_nonneg (not_lt.1 hx) hc.le],
      fun h => mul_neg_of_neg_of_pos h hc⟩

/-- The change of a pass is a factor. -/
theorem pass_factor {eps dtau x g : ℝ} (heps : 0 < eps) (hg : dtau * (g - 1) < eps) :
    ∃ c, 0 < c ∧ x + dtau * (x / Real.sqrt (x ^ 2 + eps ^ 2)) * (1 - g) = x * c := by
  have hp : 0 < x ^ 2 + eps ^ 2 := by positivity
  have hr : 0 < Real.sqrt (x ^ 2 + eps ^ 2) := Real.sqrt_pos.2 hp
  have hle : eps ≤ Real.sqrt (x ^ 2 + eps ^ 2) := by
    rw [Real.le_sqrt heps.le hp.le]
    nlinarith [sq_nonneg x]
  refine ⟨1 - dtau * (g - 1) / Real.sqrt (x ^ 2 + eps ^ 2), ?_, ?_⟩
  · rw [sub_pos, div_lt_one hr]
    linarith
  · field_simp
    ring

/-- **C107.** A pass keeps the sign of every node as long as the level set is not too steep.  The
classes take a width of three halves and a pseudo time step of a fifth of the length of the mesh
(/repo/src/Plato_LevelSetCylinderInBox.hpp:331-332), so the bound is met if the steepness around the node is below
17/2. -/
theorem C107_sign {M : Mesh} {F : Fields} (h : WF M F) {c : Sched} (hc : c.Ok M) {eps dtau b : ℝ}
    (heps : 0 < eps) (hdtau : 0 ≤ dtau) (hb : dtau * (b - 1) < eps)
    (hs : ∀ e, e < M.nelems → steepness M (value F) e ≤ b) :
    (eikonal M c.o1 c.o2 c.oe c.on eps dtau F).Sat fun G => WF M G.1 ∧
      ∀ i, i < M.nverts → SameSign (value F i) (value G.1 i) := by
  have key : ∀ i, i < M.nverts → (eikonal M c.o1 c.o2 c.oe c.on eps dtau F).Sat fun G =>
      Kept M F G.1 ∧ SameSign (value F i) (value G.1 i) := by
    intro i hi
    refine (C107_reinit h hc.h1 hc.h2 hc.he hc.hn eps dtau (fun _ => 0) (fun _ => max b 0) ?_ hi).mono ?_
    · rintro i e ⟨he, -⟩
      exact ⟨Real.sqrt_nonneg _, (hs e he).trans (le_max_left _ _)⟩
    · rintro G ⟨hk, g, hv, hg⟩
      refine ⟨hk, ?_⟩
      have hg' : dtau * (g - 1) < eps := by
        have hgm : g ≤ max b 0 := by rcases hg with rfl | hg; exacts [le_max_right _ _, hg.2]
        rcases le_max_iff.1 hgm with hgb | hgb
        · nlinarith
        · nlinarith
      obtain ⟨f, hf, hfx⟩ := pass_factor (x := value F i) heps hg'
      rw [hv, hfx]
      exact SameSign.mul hf
  by_cases hv : 0 < M.nverts
  · refine sat_forall (P := fun i (G : Fields × ℝ × Nat) => i < M.nverts → SameSign (value F i) (value G.1 i))
      ((key 0 hv).mono fun G hG => hG.1.wf) (fun i => ?_)
    by_cases hi : i < M.nverts
    · exact (key i hi).mono fun G hG _ => hG.2
    · exact (key 0 hv).mono fun G _ hc => absurd hc hi
  · have h0 : M.nverts = 0 := by omega
    have hne : M.nelems = 0 := by
      by_contra hc
      have := node_lt h (e := 0) (n := 0) (by omega) (by omega)
      omega
    obtain ⟨o1, o2, oe, on⟩ := c
    have e1 : o1 = [] := by simpa [IsSchedule, h0] using hc.h1
    have e2 : o2 = [] := by simpa [IsSchedule, h0] using hc.h2
    have e3 : oe = [] := by simpa [IsSchedule, hne] using hc.he
    have e4 : on = [] := by simpa [IsSchedule, h0] using hc.hn
    subst e1 e2 e3 e4
    unfold eikonal zeroOut
    simp only [parFor, Res.ok_bind, Res.pure_eq, Res.sat_ok]
    exact ⟨⟨h.conn, h.verts, h.vol, h.rhs, h.norm, h.d0, h.d1, Nat.mod_lt _ (by omega), h.elem, h.nodal⟩,
      fun i hi => absurd hi (by omega)⟩

/-- Several passes, without the test of the residual. -/
noncomputable def passes (M : Mesh) (eps dtau : ℝ) : List Sched → Fields → Res Fields
  | [], F => .ok F
  | c :: cs, F => do
    let r ← eikonal M c.o1 c.o2 c.oe c.on eps dtau F
    passes M eps dtau cs r.1

/-- **C107.** The whole reinitialisation keeps the sign of every node, whenever it stops, if no pass
starts from a level set that is too steep. -/
theorem C107_sign_loop {M : Mesh} {eps dtau b tol : ℝ} (heps : 0 < eps) (hdtau : 0 ≤ dtau)
    (hb : dtau * (b - 1) < eps) (cs : List Sched) (hcs : ∀ c ∈ cs, c.Ok M) {F : Fields} (h : WF M F)
    (hs : ∀ k G, k < cs.length → passes M eps dtau (cs.take k) F = .ok G →
      ∀ e, e < M.nelems → steepness M (value G) e ≤ b) :
    (reinitLoop M eps dtau tol cs F).Sat fun G => WF M G ∧
      ∀ i, i < M.nverts → SameSign (value F i) (value G i) := by
  induction cs generalizing F with
  | nil => exact Res.sat_ok.2 ⟨h, fun i _ => SameSign.refl _⟩
  | cons c cs ih =>
    obtain ⟨r, hr, hwf, hsame⟩ := C107_sign h (hcs c (by simp)) heps hdtau hb
      (hs 0 F (by simp) (by simp [passes]))
    unfold reinitLoop
    rw [hr]
    simp only [Res.ok_bind]
    by_cases hsm : small r.2 tol = true
    · rw [if_pos hsm, Res.sat_pure]
      exact ⟨hwf, hsame⟩
    · rw [if_neg hsm]
      refine (ih (fun c hc => hcs c (by simp [hc])) hwf ?_).mono ?_
      · intro k G hk hG
        refine hs (k + 1) G (by simp only [List.length_cons]; omega) ?_
        rw [List.take_succ_cons]
        unfold passes
        rw [hr]
        exact hG
      · rintro G ⟨h1, h2⟩
        exact ⟨h1, fun i hi => (hsame i hi).trans (h2 i hi)⟩

/-- **C107.** `reinitialize_level_set` keeps the sign of every node under the same condition. -/
theorem C107_sign_all {M : Mesh} {eps dtau b : ℝ} (heps : 0 < eps) (hdtau : 0 ≤ dtau)
    (hb : dtau * (b - 1) < eps) (cs : List Sched) (hcs : ∀ c ∈ cs, c.Ok M) {F : Fields} (h : WF M F)
    (hs : ∀ k G, k < cs.length → passes M eps dtau (cs.take k) F = .ok G →
      ∀ e, e < M.nelems → steepness M (value G) e ≤ b) :
    (reinitialize M eps dtau cs F).Sat fun G => WF M G ∧
      ∀ i, i < M.nverts → SameSign (value F i) (value G i) := by
  unfold reinitialize
  split_ifs
  · refine C107_sign_loop heps hdtau hb (cs.take 10) (fun c hc => hcs c (List.mem_of_mem_take hc)) h ?_
    intro k G hk hG
    rw [List.length_take] at hk
    refine hs k G (by omega) ?_
    rwa [List.take_take, min_eq_left (by omega)] at hG
  · exact Res.sat_ok.2 ⟨h, fun i _ => SameSign.refl _⟩

/-- **C107.** Without nodes of both signs nothing happens. -/
theorem C107_no_interface {M : Mesh} {F : Fields} {eps dtau : ℝ} (cs : List Sched)
    (h : (∀ i, i < M.nverts → 0 ≤ value F i) ∨ ∀ i, i < M.nverts → value F i ≤ 0) :
    reinitialize M eps dtau cs F = .ok F := by
  unfold reinitialize
  rw [if_neg]
  rintro ⟨⟨i, hi, hi'⟩, j, hj, hj'⟩
  rcases h with h | h
  · exact absurd (h i hi) (not_le.2 hi')
  · exact absurd (h j hj) (not_le.2 hj')

/-- **C107.** A full step of the front (movement, then reinitialisation) does not give back what is
burned: with speeds that are not negative a node below zero stays below zero, if the reinitialisation
does not meet a level set that is too steep. -/
theorem C107_burned {M : Mesh} {F : Fields} (h : WF M F) {c : Sched} (hc : c.Ok M) (cs : List Sched)
    (hcs : ∀ c ∈ cs, c.Ok M) {dt eps dtau b : ℝ} (hdt : 0 ≤ dt) (hspeed : ∀ e, e < M.nelems → 0 ≤ speedOf M F e)
    (heps : 0 < eps) (hdtau : 0 ≤ dtau) (hb : dtau * (b - 1) < eps)
    (hs : ∀ k G G', evolve M c.o1 c.o2 c.oe c.on dt F = .ok G → k < cs.length →
      passes M eps dtau (cs.take k) G = .ok G' → ∀ e, e < M.nelems → steepness M (value G') e ≤ b) :
    (evolve M c.o1 c.o2 c.oe c.on dt F >>= reinitialize M eps dtau cs).Sat fun G =>
      WF M G ∧ ∀ i, i < M.nverts → value F i < 0 → value G i < 0 := by
  obtain ⟨G, hG, hk⟩ := C107_step h hc.h1 hc.h2 hc.he hc.hn dt
  obtain ⟨G', hG', hdown⟩ := C107_outward h hc.h1 hc.h2 hc.he hc.hn dt hdt hspeed
  rw [hG] at hG'
  cases hG'
  rw [hG]
  simp only [Res.ok_bind]
  refine (C107_sign_all heps hdtau hb cs hcs hk.wf (fun k G' hk' => hs k G G' hG hk')).mono ?_
  rintro G' ⟨h1, h2⟩
  exact ⟨h1, fun i hi hneg => (h2 i hi).2.2 (lt_of_le_of_lt (hdown i hi) hneg)⟩

/-! ## Area and rate -/

/-- Mean of the values at the nodes of an element. -/
noncomputable def average (M : Mesh) (F : Fields) (e : Nat) : ℝ :=
  (∑ n ∈ range (M.dim + 1), value F (node M e n)) / (M.dim + 1)

theorem mean_ok {M : Mesh} {F : Fields} (h : WF M F) {e : Nat} (he : e < M.nelems) :
    mean M F ((List.range (M.dim + 1)).map (node M e)) = .ok (average M F e) := by
  unfold mean
  have key := forRange_eq (n := M.dim + 1) (body := fun n (a : ℝ) => do
      let v ← rd ((List.range (M.dim + 1)).map (node M e)) n
      let x ← vrd2 F.levelSet v F.cur
      pure (a + x / (M.dim + 1 : ℕ)))
    (fun k => ∑ n ∈ range k, value F (node M e n) / (M.dim + 1 : ℕ)) (by
      intro k hk
      rw [rd_eq (by simpa using hk)]
      simp only [Res.ok_bind, List.getElem_map, List.getElem_range]
      rw [vrd2_ok (by rw [h.d0]; exact node_lt h he hk) (by rw [h.d1]; exact h.cur)]
      simp only [Res.ok_bind, Res.pure_eq]
      rw [Finset.sum_range_succ]
      rfl)
  rw [Finset.sum_range_zero] at key
  rw [key]
  unfold average
  rw [← Finset.sum_div]
  push_cast
  rfl

/-- The smeared delta function of the specification: one period of a raised cosine of width `2 eps`. -/
noncomputable def bump (eps x : ℝ) : ℝ :=
  if |x| ≤ eps then (1 + Real.cos (Real.pi * x / eps)) / (2 * eps) else 0

theorem delta_eq (x eps : ℝ) : delta x eps = bump eps x := by
  unfold delta bump
  by_cases hx : |x| ≤ eps
  · obtain ⟨h1, h2⟩ := abs_le.1 hx
    rw [if_pos hx, if_neg (by rintro (h | h) <;> linarith)]
    rw [div_div]
    ring
  · rw [if_neg hx, if_pos]
    by_contra hc
    rw [not_or, not_lt, not_lt] at hc
    exact hx (abs_le.2 hc)

/-- **C107.** Area of the front: the integral of the bump, whatever the order of the elements. -/
theorem C107_area {M : Mesh} {F : Fields} (h : WF M F) {order : List Nat} (ho : IsSchedule order M.nelems)
    (eps : ℝ) : area M F order eps = .ok (∑ e ∈ range M.nelems, M.size e * bump eps (average M F e)) := by
  unfold area
  refine Res.Sat.eq_ok ((parFor_sched ho (fun D a => a = ∑ e ∈ D, M.size e * bump eps (average M F e))
    (by simp) ?_).mono fun _ h => h)
  rintro D e a he hD - rfl
  rw [nodes_ok h he]
  simp only [Res.ok_bind]
  rw [mean_ok h he]
  simp only [Res.ok_bind, Res.pure_eq, Res.sat_ok]
  rw [Finset.sum_insert hD, delta_eq, add_comm]

/-- **C107.** Rate of change of the volume with speeds of elements. -/
theorem C107_rate {M : Mesh} {F : Fields} (h : WF M F) (hu : F.useElem = true) {order : List Nat}
    (ho : IsSchedule order M.nelems) (eps : ℝ) :
    rate M F order eps
      = .ok (∑ e ∈ range M.nelems, M.size e * speedOf M F e * bump eps (average M F e)) := by
  unfold rate
  refine Res.Sat.eq_ok ((parFor_sched ho
    (fun D a => a = ∑ e ∈ D, M.size e * speedOf M F e * bump eps (average M F e))
    (by simp) ?_).mono fun _ h => h)
  rintro D e a he hD - rfl
  rw [nodes_ok h he]
  simp only [Res.ok_bind]
  rw [mean_ok h he]
  simp only [Res.ok_bind]
  rw [rd_at0 (by rw [h.elem hu]; exact he)]
  simp only [Res.ok_bind, Res.pure_eq, Res.sat_ok]
  rw [Finset.sum_insert hD, delta_eq, add_comm]
  unfold speedOf
  rw [if_pos hu]

theorem bump_nonneg {eps : ℝ} (h : 0 < eps) (x : ℝ) : 0 ≤ bump eps x := by
  unfold bump
  split_ifs
  · have := Real.neg_one_le_cos (Real.pi * x / eps)
    exact div_nonneg (by linarith) (by linarith)
  · exact le_rfl

/-- **C107.** The area is not negative, and for one speed everywhere the rate is speed times area. -/
theorem C107_area_rate {M : Mesh} {F : Fields} (h : WF M F) (hu : F.useElem = true) {o o' : List Nat}
    (ho : IsSchedule o M.nelems) (ho' : IsSchedule o' M.nelems) {eps s : ℝ} (heps : 0 < eps)
    (hsize : ∀ e, e < M.nelems → 0 ≤ M.size e) (hs : ∀ e, e < M.nelems → speedOf M F e = s) :
    ∃ a, area M F o eps = .ok a ∧ 0 ≤ a ∧ rate M F o' eps = .ok (s * a) := by
  refine ⟨_, C107_area h ho eps, ?_, ?_⟩
  · exact Finset.sum_nonneg fun e he => mul_nonneg (hsize e (mem_range.1 he)) (bump_nonneg heps _)
  · rw [C107_rate h hu ho' eps, Finset.mul_sum]
    congr 1
    refine Finset.sum_congr rfl fun e he => ?_
    rw [hs e (mem_range.1 he)]
    ring

/-! ## Cases -/

/-- Two elements of length one on a line, nodes 0, 1, 2. -/
noncomputable def line : Mesh where
  dim := 1
  nverts := 3
  nelems := 2
  conn := [0, 1, 1, 2]
  vol := fun _ => 1
  size := fun _ => 1
  grad := fun _ n _ => if n = 0 then -1 else 1

/-- Values `-1/2, 1/2, 3/2`, speed two in both elements. -/
noncomputable def ramp : Fields where
  rhs := [0, 0, 0]
  norm := [0, 0, 0]
  elemSpeed := [2, 2]
  nodalSpeed := []
  levelSet := ⟨3, 2, fun i c => if c = 0 then (i : ℝ) - 1 / 2 else 0⟩
  cur := 0
  useElem := true

theorem ramp_wf : WF line ramp where
  conn := rfl
  verts := by
    intro k hk
    have : k < 4 := hk
    interval_cases k <;> simp [line, at0]
  vol := fun _ _ => one_pos
  rhs := rfl
  norm := rfl
  d0 := rfl
  d1 := rfl
  cur := by simp [ramp]
  elem := fun _ => rfl
  nodal := by simp [ramp]

theorem ramp_node {e n : Nat} (he : e < 2) (hn : n < 2) : node line e n = e + n := by
  interval_cases e <;> interval_cases n <;> rfl

theorem ramp_steep {e : Nat} (he : e < 2) : steepness line (value ramp) e = 1 := by
  unfold steepness
  have : ∑ n ∈ range (line.dim + 1), line.grad e n 0 * value ramp (node line e n) = 1 := by
    change ∑ n ∈ range 2, _ = _
    rw [Finset.sum_range_succ, Finset.sum_range_succ, Finset.sum_range_zero, ramp_node he (by omega),
      ramp_node he (by omega)]
    simp [line, value, ramp]
  change Real.sqrt (∑ k ∈ range 1, _) = 1
  rw [Finset.sum_range_one, this]
  simp

theorem ramp_speed {e : Nat} (he : e < 2) : speedOf line ramp e = 2 := by
  unfold speedOf
  interval_cases e <;> simp [ramp, at0]

theorem sched3 : IsSchedule [2, 0, 1] 3 := by unfold IsSchedule; decide
theorem sched2 : IsSchedule [1, 0] 2 := by unfold IsSchedule; decide

/-- The hypotheses of `C107_speed` and `C107_planar` are met: the nodes of the ramp move by two times the
step, or not at all. -/
example : (evolve line [2, 0, 1] [2, 0, 1] [1, 0] [2, 0, 1] (1 / 10) ramp).Sat fun G =>
    value G 1 = value ramp 1 ∨ value G 1 = value ramp 1 - 1 / 10 * 2 :=
  C107_planar ramp_wf sched3 sched3 sched2 sched3 (1 / 10) 2 (by simp [line]) (by
    rintro e ⟨he, -⟩
    rw [ramp_speed he, ramp_steep he]
    norm_num)

example : (evolve line [2, 0, 1] [2, 0, 1] [1, 0] [2, 0, 1] (1 / 10) ramp).Sat fun G =>
    ∀ i, i < 3 → value G i ≤ value ramp i :=
  C107_outward ramp_wf sched3 sched3 sched2 sched3 (1 / 10) (by norm_num) (by
    intro e he
    rw [ramp_speed he]
    norm_num)

/-- Node 0 is a minimum and stays. -/
example : (evolve line [2, 0, 1] [2, 0, 1] [1, 0] [2, 0, 1] (1 / 10) ramp).Sat fun G =>
    value G 0 = value ramp 0 :=
  C107_extremum ramp_wf sched3 sched3 sched2 sched3 (1 / 10) (by simp [line]) (Or.inl (by
    rintro e ⟨he, -⟩
    refine ⟨by rw [ramp_speed he]; norm_num, ?_⟩
    intro n hn
    rw [ramp_node he hn]
    simp [value, ramp]
    positivity))

/-- In the second element a node goes down. -/
example : (evolve line [2, 0, 1] [2, 0, 1] [1, 0] [2, 0, 1] (1 / 10) ramp).Sat fun G =>
    ∃ n, n < 2 ∧ value G (node line 1 n) < value ramp (node line 1 n) :=
  C107_moves ramp_wf sched3 sched3 sched2 sched3 (1 / 10) (by norm_num)
    (fun e he => by rw [ramp_speed he]; norm_num) (e := 1) (by simp [line])
    (by intro k _; simp [line, Finset.sum_range_succ])
    (by rw [ramp_steep (by omega)]; norm_num)

theorem ramp_sched : Sched.Ok line ⟨[2, 0, 1], [2, 0, 1], [1, 0], [2, 0, 1]⟩ :=
  ⟨sched3, sched3, sched2, sched3⟩

/-- A pass with the constants of the classes keeps the signs of the ramp. -/
example : (reinitialize line (3 / 2) (1 / 5) [⟨[2, 0, 1], [2, 0, 1], [1, 0], [2, 0, 1]⟩] ramp).Sat fun G =>
    WF line G ∧ ∀ i, i < 3 → SameSign (value ramp i) (value G i) :=
  C107_sign_all (b := 8) (by norm_num) (by norm_num) (by norm_num) _
    (by intro c hc; rw [List.mem_singleton.1 hc]; exact ramp_sched) ramp_wf (by
      intro k G hk hG e he
      have : k = 0 := by simpa using hk
      subst this
      simp only [List.take_zero, passes] at hG
      cases hG
      rw [ramp_steep he]
      norm_num)

example : ∃ a, area line ramp [1, 0] (3 / 2) = .ok a ∧ 0 ≤ a ∧ rate line ramp [0, 1] (3 / 2) = .ok (2 * a) :=
  C107_area_rate ramp_wf rfl sched2 (by unfold IsSchedule; decide) (by norm_num)
    (fun _ _ => zero_le_one) (fun _ he => ramp_speed he)

end Plato.LevelSet
