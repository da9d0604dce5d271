import Verif.Em.Props
import Verif.Tm.Output

/-!
# Output of electromechanics and concrete cases

What the residual and the energy store as output.  A charged dielectric, the sign of the energy.
-/

namespace Plato.Em
open Finset Plato Plato.Mech Plato.Thermal Plato.Dyn Plato.Crit
open Plato.Tm (work_single slab slab_ok slabX slab_det)

/-! ## Output -/

/-- What the names mean on a cell: strain, electric field, penalised stress and electric displacement. -/
noncomputable def outputSpec (P : Em ℝ) (name : String) (U Z : Nat → ℝ) (X : Nat → Nat → ℝ) (t : Nat) : ℝ :=
  if name = "strain" then P.strainForm U X t
  else if name = "efield" then P.fieldForm U X t
  else if name = "stress" then P.stressForm U Z X t
  else P.dispForm U Z X t

section
variable {P : Em ℝ} (hd : P.d = 1 ∨ P.d = 2 ∨ P.d = 3) {cells : List Nat} {state control : V2 ℝ} {config : V3 ℝ}
  (hw : WsOk P.d (P.d + 1) cells.length state control config)
  {nelems : Nat} {order : List Nat} (ho : IsSchedule order cells.length) (hnd : cells.Nodup)
  (hlt : ∀ g ∈ cells, g < nelems)
include hd hw ho hnd hlt

/-- The outputs of the residual: "strain" and "efield" hold the strain, "stress" and "edisp" the stress. -/
theorem static_output (hB : ∀ L ∈ P.bodyLoads, L.Ok P.d (P.d + 1) cells) {sched : Nat → List Nat}
    (hs : ∀ k, IsSchedule (sched k) cells.length) {init : Nat → Nat → Nat} {result : V2 ℝ}
    (hr0 : cells.length ≤ result.d0) (hr1 : (P.d + 1) * (P.d + 1) ≤ result.d1)
    {name : String} (hname : name ∈ ["strain", "efield", "stress", "edisp"]) (hp : name ∈ P.plottable) :
    (P.static abs init sched cells state control config result).Sat fun r =>
      ∃ view, (name, view) ∈ r.2 ∧ (∀ view', (name, view') ∈ r.2 → view' = view) ∧
        (toMap nelems cells order view none).Sat fun data =>
          data.d0 = nelems ∧ data.d1 = numVoigt P.d ∧ ∀ c t, c < cells.length → t < numVoigt P.d →
            data.e (atN cells c) t = outputSpec P (if name = "strain" ∨ name = "efield" then "strain" else "stress")
              (state.e c) (control.e c) (config.e c) t := by
  obtain ⟨w, he, hok, hk⟩ := static_ok abs hd hw hB hs init hr0 hr1
  rw [he, Res.sat_ok]
  have key : ∀ (view : V2 ℝ) (nm : String), view.d0 = cells.length → view.d1 = numVoigt P.d →
      (∀ c t, c < cells.length → t < numVoigt P.d →
        view.e c t = outputSpec P nm (state.e c) (control.e c) (config.e c) t) →
      (toMap nelems cells order view none).Sat fun data => data.d0 = nelems ∧ data.d1 = numVoigt P.d ∧
        ∀ c t, c < cells.length → t < numVoigt P.d →
          data.e (atN cells c) t = outputSpec P nm (state.e c) (control.e c) (config.e c) t := by
    intro view nm h0 h1 hv
    refine (toMap_ok ho hnd hlt h0.ge (by simp)).mono fun data hdat =>
      ⟨hdat.1, hdat.2.1.trans h1, fun c t hc ht => ?_⟩
    rw [hdat.2.2.1 c t hc (by rw [h1]; exact ht)]
    exact hv c t hc ht
  have k1 := key w.strain "strain" hok.e0 hok.e1 fun c t hc ht => (hk c hc).1.strain t ht
  have k2 := key w.stress "stress" hok.s0 hok.s1 fun c t hc ht => (hk c hc).2.stress t ht
  simp only [List.mem_cons, List.not_mem_nil, or_false] at hname
  rcases hname with rfl | rfl | rfl | rfl
  · refine ⟨w.strain, by unfold Em.plots; rw [if_pos hp]; simp, fun v' hv' => ?_, k1⟩
    unfold Em.plots at hv'
    revert hv'
    split_ifs <;> simp
  · refine ⟨w.strain, by unfold Em.plots; rw [if_pos (show "efield" ∈ P.plottable from hp)]; simp, fun v' hv' => ?_, k1⟩
    unfold Em.plots at hv'
    revert hv'
    split_ifs <;> simp
  · refine ⟨w.stress, by unfold Em.plots; rw [if_pos (show "stress" ∈ P.plottable from hp)]; simp, fun v' hv' => ?_, k2⟩
    unfold Em.plots at hv'
    revert hv'
    split_ifs <;> simp
  · refine ⟨w.stress, by unfold Em.plots; rw [if_pos (show "edisp" ∈ P.plottable from hp)]; simp, fun v' hv' => ?_, k2⟩
    unfold Em.plots at hv'
    revert hv'
    split_ifs <;> simp

/-- **C67**, output, for the strain and the stress: what the residual stores under "strain" and "stress" are, on
every cell of the domain, the strain and the penalised stress.  Missing: "efield" and "edisp", for which the claim
is false (`C67_output_false`). -/
theorem C67_output_partial (hB : ∀ L ∈ P.bodyLoads, L.Ok P.d (P.d + 1) cells) {sched : Nat → List Nat}
    (hs : ∀ k, IsSchedule (sched k) cells.length) {init : Nat → Nat → Nat} {result : V2 ℝ}
    (hr0 : cells.length ≤ result.d0) (hr1 : (P.d + 1) * (P.d + 1) ≤ result.d1)
    {name : String} (hname : name = "strain" ∨ name = "stress") (hp : name ∈ P.plottable) :
    (P.static abs init sched cells state control config result).Sat fun r =>
      ∃ view, (name, view) ∈ r.2 ∧ (∀ view', (name, view') ∈ r.2 → view' = view) ∧
        (toMap nelems cells order view none).Sat fun data =>
          data.d0 = nelems ∧ data.d1 = numVoigt P.d ∧ ∀ c t, c < cells.length → t < numVoigt P.d →
            data.e (atN cells c) t = outputSpec P name (state.e c) (control.e c) (config.e c) t := by
  have := static_output hd hw ho hnd hlt hB hs (init := init) hr0 hr1 (name := name)
    (by rcases hname with rfl | rfl <;> simp) hp
  rcases hname with rfl | rfl
  · exact this
  · exact this

/-- **C67 is false for the output of the electric field and displacement**: what the residual stores under
"efield" is the strain, and what it stores under "edisp" the penalised stress, with one column per Voigt term, in
every cell and for every state. -/
theorem C67_output_false (hB : ∀ L ∈ P.bodyLoads, L.Ok P.d (P.d + 1) cells) {sched : Nat → List Nat}
    (hs : ∀ k, IsSchedule (sched k) cells.length) {init : Nat → Nat → Nat} {result : V2 ℝ}
    (hr0 : cells.length ≤ result.d0) (hr1 : (P.d + 1) * (P.d + 1) ≤ result.d1)
    {name : String} (hname : name = "efield" ∨ name = "edisp") (hp : name ∈ P.plottable) :
    (P.static abs init sched cells state control config result).Sat fun r =>
      ∃ view, (name, view) ∈ r.2 ∧ (∀ view', (name, view') ∈ r.2 → view' = view) ∧
        (toMap nelems cells order view none).Sat fun data =>
          data.d1 = numVoigt P.d ∧ ∀ c t, c < cells.length → t < numVoigt P.d →
            data.e (atN cells c) t =
              if name = "efield" then P.strainForm (state.e c) (config.e c) t
              else P.stressForm (state.e c) (control.e c) (config.e c) t := by
  refine (static_output hd hw ho hnd hlt hB hs (init := init) hr0 hr1 (name := name)
    (by rcases hname with rfl | rfl <;> simp) hp).mono ?_
  rintro r ⟨view, h1, h2, h3⟩
  refine ⟨view, h1, h2, h3.mono ?_⟩
  rintro data ⟨-, h4, h5⟩
  refine ⟨h4, fun c t hc ht => ?_⟩
  rw [h5 c t hc ht]
  rcases hname with rfl | rfl <;> rfl

/-- **C68 is false for the output of the electric displacement**: what the energy stores under "edisp" is the
penalised stress. -/
theorem C68_output_false {sched : List Nat} (hs : IsSchedule sched cells.length) {result : List ℝ}
    (hr : result.length = cells.length) (hp : "edisp" ∈ P.plottable) :
    (P.energy abs sched cells.length state control config result).Sat fun r =>
      ∃ view, ("edisp", view) ∈ r.2 ∧ (∀ view', ("edisp", view') ∈ r.2 → view' = view) ∧
        (toMap nelems cells order view none).Sat fun data =>
          data.d1 = numVoigt P.d ∧ ∀ c t, c < cells.length → t < numVoigt P.d →
            data.e (atN cells c) t = P.stressForm (state.e c) (control.e c) (config.e c) t := by
  obtain ⟨w, r, he, hok, -, hk⟩ := energy_ok abs hd hw hs hr
  rw [he, Res.sat_ok]
  refine ⟨w.stress, by unfold Em.energyPlots; rw [if_pos (show "edisp" ∈ P.plottable from hp)]; simp, fun v' hv' => ?_,
    (toMap_ok ho hnd hlt hok.s0.ge (by simp)).mono fun data hdat => ⟨hdat.2.1.trans hok.s1, fun c t hc ht => ?_⟩⟩
  · unfold Em.energyPlots at hv'
    revert hv'
    split_ifs <;> simp
  · rw [hdat.2.2.1 c t hc (by rw [hok.s1]; exact ht)]
    exact (hk c hc).2.2.stress t ht

end

/-- In every cell there are states for which strain and electric field differ: stretched in the first direction at
zero potential. -/
theorem strain_not_field {P : Em ℝ} (hd : P.d = 1 ∨ P.d = 2 ∨ P.d = 3) {X : Nat → Nat → ℝ}
    (hdet : detForm P.d X ≠ 0) : ∃ U : Nat → ℝ, P.strainForm U X 0 = 1 ∧ P.fieldForm U X 0 = 0 := by
  refine ⟨fun l => if l % (P.d + 1) = 0 then X (l / (P.d + 1)) 0 else 0, ?_, ?_⟩
  · rw [strain_affine hd hdet (b := fun _ => 0) (A := fun i j => if i = 0 ∧ j = 0 then 1 else 0)]
    · rcases hd with h | h | h <;> rw [h] <;> simp [voigtPair]
    · intro n i hn hi
      have e1 : (n * (P.d + 1) + i) % (P.d + 1) = i := by
        rw [Nat.mul_comm, Nat.mul_add_mod, Nat.mod_eq_of_lt (by omega)]
      have e2 : (n * (P.d + 1) + i) / (P.d + 1) = n := by
        rw [Nat.mul_comm, Nat.mul_add_div (by omega), Nat.div_eq_of_lt (by omega), add_zero]
      rw [e1, e2, zero_add]
      split_ifs with h0
      · subst h0
        rw [sum_eq_single 0] <;> simp_all
      · simp [h0]
  · refine field_const hd hdet (a := 0) (fun n hn => ?_) (by omega)
    rw [if_neg]
    rw [Nat.mul_comm, Nat.mul_add_mod, Nat.mod_eq_of_lt (by omega)]
    omega

/-! ## Concrete cases -/

/-- Unit stiffness and permittivity, coupling `e`, scaling `a`. -/
noncomputable def exLaw (e : Nat → Nat → ℝ) (a : ℝ) : EmLaw ℝ :=
  ⟨fun i j => if i = j then 1 else 0, e, fun i j => if i = j then 1 else 0, a⟩

/-- A uniform charge density `q` on cells with determinant 1. -/
noncomputable def charge (q : ℝ) : BodyLoad ℝ := ⟨1, [1 / 2], ⟨3, 1, fun _ _ => 1 / 3⟩, [q], [1, 1], 2⟩

/-- The dielectric square under a uniform charge. -/
noncomputable def slabEm (e : Nat → Nat → ℝ) (a : ℝ) (loads : List (BodyLoad ℝ)) : Em ℝ :=
  ⟨2, 1 / 2, exLaw e a, id, loads, ["strain", "efield", "stress", "edisp"]⟩

theorem slabEm_ok (e : Nat → Nat → ℝ) (a : ℝ) : EmOk slab fun _ => slabEm e a [] :=
  ⟨.inr (.inl rfl), rfl, fun _ _ => rfl, fun _ _ _ B hB => by cases hB⟩

theorem charged_ok (e : Nat → Nat → ℝ) (a q : ℝ) : EmOk slab fun _ => slabEm e a [charge q] := by
  refine ⟨.inr (.inl rfl), rfl, fun _ _ => rfl, fun k cells hk B hB => ?_⟩
  have hB : B = charge q := by simpa [slabEm] using hB
  subst hB
  have hc : cells = [0] ∨ cells = [1] := by
    unfold FeModel.part at hk
    split_ifs at hk with h
    have h : k < 2 := h
    interval_cases k <;> simp_all [slab]
  rcases hc with rfl | rfl <;>
    exact ⟨by simp [charge], by simp [charge, slab], by simp [charge], by simp [charge], by simp [charge],
      by simp [charge, slab]⟩

/-- The hypotheses of the theorems on C67 and C68 hold for the square with piezoelectric coupling, scaling 2 and a
charge. -/
example : slab.Ok ∧ EmOk slab (fun _ => slabEm (fun i t => i + t) 2 [charge 1]) ∧
    (∀ c, c < slab.nc → emGood slab (fun _ => slabEm (fun i t => i + t) 2 [charge 1]) (fun _ => id)
      (slab.cellZ [1, 1, 1, 1] c) (slab.cellX slabX c)) ∧
    (∀ t s, (slabEm (fun i t => i + t) 2 [charge 1]).law.stiff t s = (slabEm (fun i t => i + t) 2 [charge 1]).law.stiff s t) ∧
    ∀ i j, (slabEm (fun i t => i + t) 2 [charge 1]).law.perm i j = (slabEm (fun i t => i + t) 2 [charge 1]).law.perm j i :=
  ⟨slab_ok, charged_ok _ _ _, fun _ hc => ⟨slab_det hc, fun _ _ => penOk_id _⟩,
    fun t s => by simp only [slabEm, exLaw, eq_comm], fun t s => by simp only [slabEm, exLaw, eq_comm]⟩

/-- Work of the potential `a` at the last corner on the virtual potential `b` there. -/
theorem slab_form (Ls : List (BodyLoad ℝ)) (a b : ℝ) :
    emForm slab (fun _ => slabEm (fun _ _ => 0) 1 Ls) [1, 1, 1, 1] slabX (Pi.single 11 a) (Pi.single 11 b) = -(a * b) := by
  have hstate : ∀ (a : ℝ) c n i, c < 2 → n < 3 → i < 3 → dofs slab (Pi.single 11 a) c (n * 3 + i) =
      if c = 1 ∧ n = 1 ∧ i = 2 then a else 0 := by
    intro a c n i hc hn hi
    interval_cases c <;> interval_cases n <;> interval_cases i <;>
      simp [dofs, cellDof, slab, cellNode, FeModel.npc, at0, atN, Pi.single_apply]
  have eS : ∀ (a : ℝ) c t, c < 2 → (slabEm (fun _ _ => 0) 1 Ls).strainForm (dofs slab (Pi.single 11 a) c)
      (slab.cellX slabX c) t = 0 := fun a c t hc =>
    strain_const (P := slabEm (fun _ _ => 0) 1 Ls) (.inr (.inl rfl)) (slab_det hc) (b := fun _ => 0) (fun n i hn hi => by
      have hi : i < 2 := hi
      have := hstate a c n i hc hn (by omega)
      rw [if_neg (by omega)] at this
      exact this) t
  have eF : ∀ (a : ℝ) c k, c < 2 → k < 2 → (slabEm (fun _ _ => 0) 1 Ls).fieldForm (dofs slab (Pi.single 11 a) c)
      (slab.cellX slabX c) k = if c = 1 then -a else 0 := by
    intro a c k hc hk
    rw [field_affine (P := slabEm (fun _ _ => 0) 1 Ls) (.inr (.inl rfl)) (slab_det hc)
      (a := if c = 1 then -a else 0) (b := fun _ => if c = 1 then a else 0) (fun n hn => ?_) hk]
    · split_ifs <;> simp
    · have hn : n < 3 := hn
      have := hstate a c n 2 hc hn (by omega)
      show dofs slab (Pi.single 11 a) c (n * 3 + 2) = _ + ∑ j ∈ range 2, _
      rw [this]
      interval_cases c <;> interval_cases n <;>
        norm_num [slab, slabX, cellNode, FeModel.npc, FeModel.cellX, at0, atN, sum_range_succ]
  have hv : ∀ c, c < 2 → (slabEm (fun _ _ => 0) 1 Ls).volForm abs (slab.cellX slabX c) = 1 / 2 := by
    intro c hc
    have : |detForm 2 (slab.cellX slabX c)| = 1 := by
      interval_cases c <;> show |(_ : ℝ)| = 1 <;>
        norm_num [detForm, edge, FeModel.cellX, slab, slabX, cellNode, FeModel.npc, at0, atN]
    show |detForm 2 (slab.cellX slabX c)| * (1 / 2) = 1 / 2
    rw [this, one_mul]
  have hm : ∀ c, c < 2 → meanDensity 3 (slab.cellZ [(1 : ℝ), 1, 1, 1] c) = 1 := by
    intro c hc
    interval_cases c <;>
      norm_num [meanDensity, slab, FeModel.cellZ, cellNode, sum_range_succ, at0, atN, FeModel.npc]
  have hone : ∀ c, c < 2 → cellEm (slabEm (fun _ _ => 0) 1 Ls) (slab.cellZ [1, 1, 1, 1] c) (slab.cellX slabX c)
      (dofs slab (Pi.single 11 a) c) (dofs slab (Pi.single 11 b) c) = if c = 1 then -(a * b) else 0 := by
    intro c hc
    unfold cellEm
    rw [hv c hc, show (slabEm (fun _ _ => 0) 1 Ls).d = 2 from rfl,
      show (slabEm (fun _ _ => 0) 1 Ls).pen (meanDensity (2 + 1) (slab.cellZ [(1 : ℝ), 1, 1, 1] c)) = 1 from hm c hc,
      sum_eq_zero fun t _ => by rw [eS b c t hc, mul_zero]]
    have hD : ∀ k, k < 2 → (slabEm (fun _ _ => 0) 1 Ls).law.dispOf 2
        ((slabEm (fun _ _ => 0) 1 Ls).strainForm (dofs slab (Pi.single 11 a) c) (slab.cellX slabX c))
        ((slabEm (fun _ _ => 0) 1 Ls).fieldForm (dofs slab (Pi.single 11 a) c) (slab.cellX slabX c)) k =
        if c = 1 then -a else 0 := by
      intro k hk
      unfold EmLaw.dispOf
      rw [sum_eq_zero (s := range (numVoigt 2)) fun s _ => by rw [eS a c s hc, mul_zero, zero_mul], add_zero,
        sum_range_succ, sum_range_one, eF a c 0 hc (by omega), eF a c 1 hc (by omega)]
      interval_cases k <;> norm_num [slabEm, exLaw]
    rw [sum_range_succ, sum_range_one, hD 0 (by omega), hD 1 (by omega), eF b c 0 hc (by omega), eF b c 1 hc (by omega)]
    split_ifs <;> ring
  unfold emForm meshForm
  rw [show slab.domains.length = 2 from rfl, sum_range_succ, sum_range_one, show slab.size (slab.part 0) = 1 from rfl,
    show slab.size (slab.part 1) = 1 from rfl, sum_range_one, sum_range_one]
  dsimp only
  rw [hone _ (by decide), hone _ (by decide), if_neg (by decide), if_pos (by decide), zero_add]

/-- The state with potential `a` at the last corner. -/
def corner (a : ℝ) : List ℝ := List.replicate 11 0 ++ [a]

theorem corner_at (a : ℝ) (q : Nat) (hq : q < 12) : at0 (corner a) q = (Pi.single 11 a : Nat → ℝ) q := by
  interval_cases q <;> simp [corner, at0, Pi.single_apply]

theorem corner_form (Ls : List (BodyLoad ℝ)) (h : EmOk slab fun _ => slabEm (fun _ _ => 0) 1 Ls) (a b : ℝ) :
    emForm slab (fun _ => slabEm (fun _ _ => 0) 1 Ls) [1, 1, 1, 1] slabX (at0 (corner a)) (Pi.single 11 b) =
      -(a * b) := by
  rw [emForm_congr slab_ok h (u' := Pi.single 11 a) (w' := Pi.single 11 b) (fun q hq => corner_at a q hq)
    fun _ _ => rfl, slab_form]

/-- **C67 is false for the sign of the charges**: a square of unit permittivity without coupling, three corners
grounded, a positive charge density everywhere.  With the potential that makes the residual at the free corner vanish,
which by Gauss's law is positive, the potential at that corner is `-1/6`. -/
theorem C67_charge_sign_false :
    ∃ (M : FeModel) (P : Nat → Em ℝ) (u z x r : List ℝ) (init : Nat → Nat → Nat → Nat) (e sch : Nat → Nat → List Nat),
      M.Ok ∧ EmOk M P ∧ (∀ c, c < M.nc → detForm M.dim (M.cellX x c) ≠ 0) ∧
      (∀ k, (∀ i t, (P k).law.piezo i t = 0) ∧ (∀ i j, (P k).law.perm i j = if i = j then 1 else 0) ∧
        (P k).law.alpha = 1 ∧ ∀ L ∈ (P k).bodyLoads, L.dof = M.dim ∧ ∀ v ∈ L.values, v = 1) ∧
      loadWork M (fun k => (P k).bodyLoads) z (Tm.unknown M.ndof M.dim) = 1 ∧
      M.value (electroelastic abs M P init e) sch u z x = .ok r ∧
      (∀ n, n < M.nn → n ≠ 3 → at0 u (M.ndof * n + M.dim) = 0) ∧ at0 r (M.ndof * 3 + M.dim) = 0 ∧
      at0 u (M.ndof * 3 + M.dim) = -(1 / 6) := by
  obtain ⟨r, he, -, hw⟩ := C67_work (M := slab) slab_ok (charged_ok (fun _ _ => 0) 1 1) (init := fun _ _ _ => 0)
    (eR := fun k _ => List.range (slab.size (slab.part k))) (fun _ _ => IsSchedule.range _)
    (u := corner (-(1 / 6))) (z := [1, 1, 1, 1]) (x := slabX) rfl rfl rfl
    (seqSched_ok slab (slab.npc * slab.ndof))
  have hm : ∀ c, c < 2 → meanDensity 3 (slab.cellZ [(1 : ℝ), 1, 1, 1] c) = 1 := by
    intro c hc
    interval_cases c <;>
      norm_num [meanDensity, slab, FeModel.cellZ, cellNode, sum_range_succ, at0, atN, FeModel.npc]
  have hl : ∀ w : Nat → ℝ, loadWork slab (fun _ => (slabEm (fun _ _ => 0) 1 [charge 1]).bodyLoads) [1, 1, 1, 1] w =
      1 / 6 * (w 2 + w 5 + w 8) + 1 / 6 * (w 5 + w 11 + w 8) := by
    intro w
    have hcl : ∀ c gc, c = 0 → gc < 2 → cellLoad (charge 1) 2 3 c gc (slab.cellZ [1, 1, 1, 1] gc) (dofs slab w gc) =
        1 / 6 * (dofs slab w gc 2 + dofs slab w gc 5 + dofs slab w gc 8) := by
      rintro c gc rfl hgc
      unfold cellLoad
      rw [hm gc hgc]
      interval_cases gc <;> simp [charge, sum_range_succ, at0] <;> ring
    unfold loadWork
    rw [show slab.domains.length = 2 from rfl, sum_range_succ, sum_range_one,
      show slab.size (slab.part 0) = 1 from rfl, show slab.size (slab.part 1) = 1 from rfl, sum_range_one, sum_range_one]
    rw [show (slabEm (fun _ _ => 0) 1 [charge 1]).bodyLoads = [charge 1] from rfl]
    simp only [List.map_cons, List.map_nil, List.sum_cons, List.sum_nil, add_zero]
    have e1 := hcl 0 (gcell (slab.part 0) 0) rfl (by decide)
    have e2 := hcl 0 (gcell (slab.part 1) 0) rfl (by decide)
    rw [show slab.dim = 2 from rfl, show slab.ndof = 3 from rfl, e1, e2]
    rfl
  refine ⟨slab, fun _ => slabEm (fun _ _ => 0) 1 [charge 1], _, _, _, r, _, _, _, slab_ok, charged_ok _ _ _,
    fun c hc => slab_det hc, fun _ => ⟨fun _ _ => rfl, fun _ _ => rfl, rfl, fun L hL => ?_⟩, ?_, he, fun n hn h3 => ?_, ?_, ?_⟩
  · have hL : L = charge 1 := by simpa [slabEm] using hL
    subst hL
    exact ⟨rfl, fun v hv => by simpa [charge] using hv⟩
  · rw [hl]
    norm_num [Tm.unknown, slab]
  · have hn : n < 4 := hn
    rw [show slab.ndof * n + slab.dim = 3 * n + 2 from rfl, corner_at _ _ (by omega), Pi.single_apply, if_neg (by omega)]
  · rw [← work_single (show slab.ndof * 3 + slab.dim < slab.nn * slab.ndof by decide), hw,
      show slab.ndof * 3 + slab.dim = 11 from rfl, corner_form _ (charged_ok _ _ _), hl]
    norm_num [Pi.single_apply]
  · show at0 (corner _) 11 = _
    rw [corner_at _ _ (by omega), Pi.single_eq_same]

/-- Sequential execution on the square. -/
def exSched : Sched :=
  ⟨fun _ => [0], fun _ => [0], fun _ _ => [0], fun _ _ => [], fun _ _ => [[0]]⟩

theorem exSched_ok : exSched.Ok slab 1 0 := by
  have h1 : ∀ k, k < slab.domains.length → slab.size (slab.part k) = 1 := by
    intro k hk
    have hk : k < 2 := hk
    interval_cases k <;> rfl
  refine ⟨fun k hk => ?_, fun k hk => ?_, fun k t hk _ => ?_, fun k t hk _ => ?_, fun k t hk _ => ?_⟩ <;>
    rw [h1 k hk]
  · exact List.Perm.refl _
  · exact List.Perm.refl _
  · exact List.Perm.refl _
  · exact List.Perm.refl _
  · exact List.Perm.refl _

/-- **C68 is false as an energy that is not negative**: with unit stiffness and permittivity the value at a
potential different from zero is negative: it is the electric enthalpy. -/
theorem C68_nonneg_false (dt : ℝ) : ∃ (M : FeModel) (P : Nat → Em ℝ) (eR : Nat → List Nat) (sv : Sched) (wv : Nat)
    (u z x : List ℝ), M.Ok ∧ EmOk M P ∧ (∀ k, IsSchedule (eR k) (M.size (M.part k))) ∧ sv.Ok M 1 wv ∧
      (∀ k i j, (P k).law.stiff i j = (if i = j then 1 else 0) ∧ (P k).law.perm i j = if i = j then 1 else 0) ∧
      physicsValue M (electroelasticEnergy abs P eR) Post.none sv [u] z x dt = .ok (-1) := by
  refine ⟨slab, fun _ => slabEm (fun _ _ => 0) 1 [], fun k => List.range (slab.size (slab.part k)),
    exSched, 0, corner 1, [1, 1, 1, 1], slabX, slab_ok, slabEm_ok _ _, fun _ => IsSchedule.range _,
    exSched_ok, fun _ _ _ => ⟨rfl, rfl⟩, ?_⟩
  rw [C68_value slab_ok (slabEm_ok _ _) (fun _ => IsSchedule.range _) dt (S := [corner 1]) (by simp [corner, slab]) rfl rfl
    exSched_ok]
  congr 1
  rw [List.length_singleton, sum_range_one]
  show emForm _ _ _ _ (at0 (corner 1)) (at0 (corner 1)) = _
  rw [emForm_congr slab_ok (slabEm_ok _ _) (fun q hq => corner_at 1 q hq) (fun q hq => corner_at 1 q hq), slab_form]
  norm_num

end Plato.Em
