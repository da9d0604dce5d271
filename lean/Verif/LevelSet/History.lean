import Verif.LevelSet.Model
import Verif.Rocket.Props

/-!
# C108: the history of the level set

The specification counts: a frame is a pair of a time and a level set, and the level set at time
`k · dt` is the one after `k` steps.
-/

namespace Plato.LevelSet

/-! ## Specification -/

/-- The level set after the first `k` movements. -/
def stateAt (init : List ℝ) (moves : List (List ℝ → List ℝ)) (k : Nat) : List ℝ :=
  (moves.take k).foldl (fun x f => f x) init

theorem stateAt_cons (init : List ℝ) (f : List ℝ → List ℝ) (moves : List (List ℝ → List ℝ)) (k : Nat) :
    stateAt init (f :: moves) (k + 1) = stateAt (f init) moves k := rfl

/-! ## What the steps write -/

/-- Steps from any state of the class: as long as the number of the step stays below the number of
steps declared. -/
theorem run_ok (dt : ℝ) (moves : List (List ℝ → List ℝ)) (b : Box) (h : b.step + moves.length < b.hist.length) :
    (Box.run dt moves b).Sat fun c => c.ls = stateAt b.ls moves moves.length ∧
      c.hist.length = b.hist.length ∧ c.step = b.step + moves.length ∧
      c.time = b.time + moves.length * dt ∧
      c.times = b.times ++ (List.range moves.length).map (fun k : ℕ => b.time + (k + 1 : ℕ) * dt) ∧
      (∀ k, k ≤ b.step → c.hist[k]? = b.hist[k]?) ∧
      (∀ k, 0 < k → k ≤ moves.length → c.hist[b.step + k]? = some (stateAt b.ls moves k)) := by
  induction moves generalizing b with
  | nil =>
    change (Res.ok b).Sat _
    rw [Res.sat_ok]
    refine ⟨rfl, rfl, rfl, by simp, by simp, fun _ _ => rfl, fun k h1 h2 => ?_⟩
    simp at h2; omega
  | cons f fs ih =>
    simp only [List.length_cons] at h
    unfold Box.run Box.evolve
    dsimp only
    rw [wr_eq (by omega)]
    simp only [Res.ok_bind, Res.pure_eq]
    refine (ih ⟨f b.ls, b.hist.set (b.step + 1) (f b.ls), b.step + 1, b.times ++ [b.time + dt],
      b.time + dt⟩ (by simp; omega)).mono ?_
    rintro c ⟨h1, h2, h3, h4, h5, h6, h7⟩
    refine ⟨h1, by simpa using h2, by simp only [List.length_cons]; rw [h3]; dsimp only; omega,
      by rw [h4]; push_cast [List.length_cons]; ring, ?_, ?_, ?_⟩
    · rw [h5, List.length_cons, List.range_succ_eq_map, List.map_cons, List.map_map, List.append_assoc,
        List.singleton_append]
      congr 1
      congr 1
      · push_cast; ring
      · apply List.map_congr_left
        intro k _
        simp only [Function.comp]
        push_cast
        ring
    · intro k hk
      rw [h6 k (by dsimp only; omega)]
      dsimp only
      rw [List.getElem?_set_ne (by omega)]
    · intro k hk hk'
      simp only [List.length_cons] at hk'
      obtain ⟨k, rfl⟩ : ∃ j, k = j + 1 := ⟨k - 1, by omega⟩
      rw [stateAt_cons]
      rcases Nat.eq_zero_or_pos k with rfl | hpos
      · rw [h6 (b.step + (0 + 1)) (by dsimp only; omega)]
        dsimp only
        rw [Nat.zero_add, List.getElem?_set_self (by omega)]
        rfl
      · have := h7 k hpos (by omega)
        dsimp only at this
        rw [← this, show b.step + (k + 1) = b.step + 1 + k by omega]

/-- A step beyond the declared ones. -/
theorem run_ub (dt : ℝ) (moves : List (List ℝ → List ℝ)) (b : Box)
    (h : b.hist.length ≤ b.step + moves.length) (h0 : moves ≠ []) : Box.run dt moves b = .ub := by
  induction moves generalizing b with
  | nil => exact absurd rfl h0
  | cons f fs ih =>
    unfold Box.run Box.evolve
    dsimp only
    by_cases hs : b.step + 1 < b.hist.length
    · rw [wr_eq hs]
      simp only [Res.ok_bind, Res.pure_eq]
      simp only [List.length_cons] at h
      apply ih
      · simp; omega
      · rintro rfl
        simp at h; omega
    · rw [wr_ub (by omega)]
      rfl

/-- `outputLevelSetField`: frame `k` is time `k` with entry `k` of the history. -/
theorem output_ok (b : Box) (h : b.times.length ≤ b.hist.length) :
    b.output = .ok (b.times.zip b.hist) := by
  unfold Box.output
  have := forRange_inv (lo := 0) (hi := b.times.length) (s := ([] : List (ℝ × List ℝ)))
    (body := fun k out => do
      let h ← rd b.hist k
      let t ← rd b.times k
      pure (out ++ [(t, h)]))
    (fun k out => out = (b.times.zip b.hist).take k) (Nat.zero_le _) (by simp) (by
      rintro k s - hk rfl
      rw [rd_eq (by omega), rd_eq hk]
      simp only [Res.ok_bind, Res.pure_eq, Res.sat_ok]
      rw [List.take_add_one, List.getElem?_eq_getElem (by simp; omega)]
      simp)
  obtain ⟨s, hs, h1⟩ := this
  rw [hs, h1]
  simp [List.take_of_length_le, h]

/-! ## C108 -/

/-- **C108.** After the first initialisation, fewer steps than declared keep the level set after every
step, in the order of the steps, whatever the steps do; times grow by the length of a step. -/
theorem C108_kept_partial (dt : ℝ) (init : List ℝ) (n : Nat) (moves : List (List ℝ → List ℝ)) (b : Box)
    (hb : b.step = 0) (hn : moves.length < n) :
    (Box.run dt moves (b.initialize init n)).Sat fun c =>
      c.ls = stateAt init moves moves.length ∧
      c.times = (List.range moves.length).map (fun k : ℕ => (k + 1 : ℕ) * dt) ∧
      ∀ k, 0 < k → k ≤ moves.length → c.hist[k]? = some (stateAt init moves k) := by
  refine (run_ok dt moves (b.initialize init n) (by simp [Box.initialize, hb]; omega)).mono ?_
  rintro c ⟨h1, h2, h3, h4, h5, h6, h7⟩
  refine ⟨h1, by simpa [Box.initialize] using h5, ?_⟩
  intro k hk hk'
  have := h7 k hk hk'
  simpa [Box.initialize, hb] using this

/-- **C108 (refuted).** The frames in the output are one step late: the frame of time `(j + 1) · dt`
shows the level set at time `j · dt`, and the first frame is zero at every node; this for every run with
fewer steps than declared. -/
theorem C108_frames_false (dt : ℝ) (init : List ℝ) (n : Nat) (moves : List (List ℝ → List ℝ)) (b : Box)
    (hb : b.step = 0) (hn : moves.length < n) :
    ((Box.run dt moves (b.initialize init n)) >>= Box.output).Sat fun out =>
      out.length = moves.length ∧
      ∀ j, j < moves.length → out[j]? = some ((j + 1 : ℕ) * dt,
        if j = 0 then List.replicate init.length 0 else stateAt init moves j) := by
  refine (run_ok dt moves (b.initialize init n) (by simp [Box.initialize, hb]; omega)).bind ?_
  rintro c ⟨h1, h2, h3, h4, h5, h6, h7⟩
  have hl : c.times.length = moves.length := by rw [h5]; simp [Box.initialize]
  have hh : c.hist.length = n := by rw [h2]; simp [Box.initialize]
  rw [output_ok c (by omega), Res.sat_ok]
  refine ⟨by simp; omega, ?_⟩
  intro j hj
  rw [List.getElem?_zip_eq_some]
  refine ⟨?_, ?_⟩
  · rw [h5]
    simp [Box.initialize, hj]
  · by_cases h0 : j = 0
    · subst h0
      rw [h6 0 (Nat.zero_le _), if_pos rfl]
      have : 0 < n := by omega
      simp [Box.initialize, this]
    · rw [if_neg h0]
      have := h7 j (by omega) (by omega)
      simpa [Box.initialize, hb] using this

/-- Consequence: if the level set is not constant in the step, the frame at its end is wrong. -/
theorem C108_frames_late (dt : ℝ) (init : List ℝ) (n : Nat) (moves : List (List ℝ → List ℝ)) (b : Box)
    (hb : b.step = 0) (hn : moves.length < n) (j : Nat) (h0 : 0 < j) (hj : j < moves.length)
    (hmove : stateAt init moves (j + 1) ≠ stateAt init moves j) :
    ((Box.run dt moves (b.initialize init n)) >>= Box.output).Sat fun out =>
      out[j]? ≠ some ((j + 1 : ℕ) * dt, stateAt init moves (j + 1)) := by
  refine (C108_frames_false dt init n moves b hb hn).mono ?_
  rintro out ⟨-, h⟩
  rw [h j hj, if_neg (by omega)]
  intro hc
  exact hmove (by simpa using hc.symm)

/-- **C108 (refuted).** Every run of the rocket model with a tolerance below the time step writes outside
the history: `AlgebraicRocketModel::initialize` declares the integer part of burn time by time step
(/repo/src/Plato_AlgebraicRocketModel.hpp:259-263), `solve` takes at least as many steps, and step `k`
writes entry `k`. -/
theorem C108_last_step_false (I : Rocket.Inputs) (hdt : 0 < I.dt) (htol : I.newtonTolerance < I.dt)
    (init : List ℝ) (moves : List (List ℝ → List ℝ)) (b : Box) (hm : moves.length = Rocket.numSamples I) :
    Box.run I.dt moves (b.initialize init ⌊I.totalBurnTime / I.dt⌋₊) = .ub := by
  have h1 : 1 ≤ moves.length := by rw [hm]; exact le_max_left _ _
  apply run_ub
  · simp only [Box.initialize, List.length_replicate]
    refine le_trans ?_ (Nat.le_add_left _ _)
    rw [hm]
    unfold Rocket.numSamples
    refine le_max_of_le_right ?_
    by_contra hcon
    rw [not_le, ← Nat.add_one_le_iff] at hcon
    have hpos : 0 < ⌊I.totalBurnTime / I.dt⌋₊ := by omega
    have h2 := Nat.floor_le (a := I.totalBurnTime / I.dt) (le_of_lt (Nat.pos_of_floor_pos hpos))
    have h3 := Nat.le_ceil ((I.totalBurnTime - I.newtonTolerance) / I.dt)
    have h4 : ((⌈(I.totalBurnTime - I.newtonTolerance) / I.dt⌉₊ : ℝ)) + 1 ≤ ⌊I.totalBurnTime / I.dt⌋₊ := by
      exact_mod_cast hcon
    have h5 : I.newtonTolerance / I.dt < 1 := by rw [div_lt_one hdt]; exact htol
    have h6 := sub_div I.totalBurnTime I.newtonTolerance I.dt
    linarith
  · rintro rfl
    simp at h1

/-- **C108 (refuted).** Initialising again does not start the history again: the number of the step
stays.  Of two equal runs of at least half the declared length, both within the declared number of steps,
the second writes outside the history, whatever the class did before. -/
theorem C108_second_run_false (dt : ℝ) (init : List ℝ) (n : Nat) (moves : List (List ℝ → List ℝ)) (b : Box)
    (hb : b.step = 0) (hn : moves.length < n) (hm : n ≤ 2 * moves.length) :
    (Box.run dt moves (b.initialize init n)).Sat fun c =>
      Box.run dt moves (c.initialize init n) = .ub := by
  refine (run_ok dt moves (b.initialize init n) (by simp [Box.initialize, hb]; omega)).mono ?_
  rintro c ⟨h1, h2, h3, h4, h5, h6, h7⟩
  simp only [Box.initialize, hb] at h3
  apply run_ub
  · simp [Box.initialize, h3]; omega
  · rintro rfl
    simp at hm hn; omega

/-! ## Cases -/

/-- A history of three steps declared, two taken by a level set of one node that moves by one. -/
example : (Box.run (1 / 2) [fun x => x.map (· - 1), fun x => x.map (· - 1)]
    (Box.initialize [3] 3 ⟨[], [], 0, [], 0⟩)).Sat fun c =>
      c.hist[1]? = some [3 - 1] ∧ c.hist[2]? = some [3 - 1 - 1] := by
  refine (C108_kept_partial (1 / 2) [3] 3 [fun x => x.map (· - 1), fun x => x.map (· - 1)]
    ⟨[], [], 0, [], 0⟩ rfl (by simp)).mono ?_
  rintro c ⟨-, -, h⟩
  exact ⟨h 1 (by omega) (by simp), h 2 (by omega) (by simp)⟩

/-- The second frame of that run shows the level set of the step before. -/
example : ((Box.run (1 / 2) [fun x => x.map (· - 1), fun x => x.map (· - 1)]
    (Box.initialize [3] 3 ⟨[], [], 0, [], 0⟩)) >>= Box.output).Sat fun out =>
      out[1]? ≠ some (((1 + 1 : ℕ) : ℝ) * (1 / 2), ([3 - 1 - 1] : List ℝ)) := by
  refine C108_frames_late (1 / 2) [3] 3 [fun x => x.map (· - 1), fun x => x.map (· - 1)]
    ⟨[], [], 0, [], 0⟩ rfl (by simp) 1 (by omega) (by simp) ?_
  norm_num [stateAt]

/-- The hypotheses of `C108_second_run_false` and of `C108_last_step_false` are met. -/
example : (Box.run (1 / 2) [fun x => x.map (· - 1), fun x => x.map (· - 1)]
    (Box.initialize [3] 3 ⟨[], [], 0, [], 0⟩)).Sat fun c =>
      Box.run (1 / 2) [fun x => x.map (· - 1), fun x => x.map (· - 1)] (c.initialize [3] 3) = .ub :=
  C108_second_run_false _ _ _ _ _ rfl (by simp) (by simp)

example (I : Rocket.Inputs) (hdt : I.dt = 1 / 10) (htol : I.newtonTolerance = 1 / 100000000) (init : List ℝ)
    (b : Box) : Box.run I.dt (List.replicate (Rocket.numSamples I) id)
      (b.initialize init ⌊I.totalBurnTime / I.dt⌋₊) = .ub :=
  C108_last_step_false I (by rw [hdt]; norm_num) (by rw [hdt, htol]; norm_num) _ _ _ (by simp)

end Plato.LevelSet
