import Verif.Dyn.Energy
import Verif.Thermal.Example

/-!
# Output of structural dynamics, and concrete cases

What the residual stores as output: the stress under the names of the stress, of the strain and of the
velocity gradient.
-/

namespace Plato.Dyn
open Finset Plato Plato.Mech Plato.Thermal

/-- **Closed form of `toMap`** for distinct cells of the mesh: the rows of the view become the rows of the
global cells, the other rows are kept. -/
theorem toMap_ok {nelems : Nat} {cells order : List Nat} {input : V2 ℝ} {entry : Option (V2 ℝ)}
    (hs : IsSchedule order cells.length) (hnd : cells.Nodup) (hlt : ∀ g ∈ cells, g < nelems)
    (hin : cells.length ≤ input.d0) (he : ∀ v, entry = some v → v.d0 = nelems ∧ v.d1 = input.d1) :
    (toMap nelems cells order input entry).Sat fun data => data.d0 = nelems ∧ data.d1 = input.d1 ∧
      (∀ c i, c < cells.length → i < input.d1 → data.e (atN cells c) i = input.e c i) ∧
      ∀ g i, g ∉ cells → data.e g i = (entry.getD ⟨nelems, input.d1, fun _ _ => 0⟩).e g i := by
  have h0 : (entry.getD ⟨nelems, input.d1, fun _ _ => 0⟩).d0 = nelems ∧
      (entry.getD ⟨nelems, input.d1, fun _ _ => 0⟩).d1 = input.d1 := by
    cases entry with
    | none => exact ⟨rfl, rfl⟩
    | some v => exact he v rfl
  generalize hE : entry.getD ⟨nelems, input.d1, fun _ _ => 0⟩ = E at h0
  unfold toMap
  rw [hE]
  dsimp only
  rw [if_neg (not_not.2 h0.1), if_neg (not_not.2 h0.2)]
  have hmem : ∀ c, c < cells.length → atN cells c ∈ cells := fun c hc => by
    unfold atN at0
    rw [List.getElem?_eq_getElem hc]
    exact List.getElem_mem hc
  have hinj : ∀ c c', c < cells.length → c' < cells.length → atN cells c = atN cells c' → c = c' := by
    intro c c' hc hc' e
    unfold atN at0 at e
    rw [List.getElem?_eq_getElem hc, List.getElem?_eq_getElem hc'] at e
    exact (List.Nodup.getElem_inj_iff hnd).1 e
  refine (parFor_sched hs (fun D s => s.d0 = nelems ∧ s.d1 = input.d1 ∧
    (∀ c i, c ∈ D → c < cells.length → i < input.d1 → s.e (atN cells c) i = input.e c i) ∧
    ∀ g i, g ∉ cells → s.e g i = E.e g i) ⟨h0.1, h0.2, fun c i hc => by simp at hc, fun _ _ _ => rfl⟩
    ?_).mono fun s hI => ⟨hI.1, hI.2.1, fun c i hc hi => hI.2.2.1 c i (mem_range.2 hc) hc hi, hI.2.2.2⟩
  rintro D c s hc hD - ⟨s0, s1, hI, hO⟩
  rw [rd_atN hc, Res.ok_bind]
  have hg : atN cells c < s.d0 := by rw [s0]; exact hlt _ (hmem c hc)
  have := forRange_row (n := input.d1) (i := atN cells c) (z := s)
    (body := fun i data => do
      let x ← vrd2 input c i
      vwr2 data (atN cells c) i x) (fun i _ => input.e c i) (s.e (atN cells c)) (by
      intro j f hj
      rw [vrd2_ok (by omega) hj, Res.ok_bind, vwr2_row hg (by omega)])
  rw [V2.row_self] at this
  rw [this, Res.sat_ok]
  refine ⟨s0, s1, fun c' i hc' hl hi => ?_, fun g i hgc => ?_⟩
  · unfold V2.row
    dsimp only
    by_cases hcc : c' = c
    · subst hcc
      rw [if_pos rfl, if_pos hi]
    · rw [if_neg fun e => hcc (hinj _ _ hl hc e)]
      exact hI c' i ((mem_insert.1 hc').resolve_left hcc) hl hi
  · unfold V2.row
    dsimp only
    rw [if_neg fun e : g = atN cells c => hgc (by rw [e]; exact hmem c hc)]
    exact hO g i hgc

/-! ## What is stored -/

/-- What the names mean on a cell: penalised stress, strain, strain rate. -/
noncomputable def outputSpec (P : Dyn ℝ) (name : String) (U V Z : Nat → ℝ) (X : Nat → Nat → ℝ) (t : Nat) : ℝ :=
  if name = "stress" then P.stressForm U V Z X t
  else if name = "strain" then P.el.strainForm U X t
  else P.el.strainForm V X t

section
variable {P : Dyn ℝ} (hd : P.el.d = 1 ∨ P.el.d = 2 ∨ P.el.d = 3) {state vel acc control : V2 ℝ}
  {config : V3 ℝ} (hb : P.basis.length = P.el.d + 1) (hdm : P.DampedOk) {cells : List Nat}
  (hw : WsOk P.el.d P.el.d cells.length state control config) (hv0 : cells.length ≤ vel.d0)
  (hv1 : (P.el.d + 1) * P.el.d ≤ vel.d1) (ha0 : cells.length ≤ acc.d0) (ha1 : (P.el.d + 1) * P.el.d ≤ acc.d1)
  (hL : ∀ L ∈ P.el.bodyLoads, L.Ok P.el.d P.el.d cells) {sched : Nat → List Nat}
  (hs : ∀ k, IsSchedule (sched k) cells.length) {init : Nat → Nat → Nat} {result : V2 ℝ}
  (hr0 : cells.length ≤ result.d0) (hr1 : (P.el.d + 1) * P.el.d ≤ result.d1)
  {nelems : Nat} {order : List Nat} (ho : IsSchedule order cells.length) (hnd : cells.Nodup)
  (hlt : ∀ g ∈ cells, g < nelems)
include hd hb hdm hw hv0 hv1 ha0 ha1 hL hs hr0 hr1 ho hnd hlt

theorem output_stress {name : String} (hname : name ∈ ["stress", "strain", "velgrad"])
    (hp : name ∈ P.plottable) (hvel : name = "velgrad" → P.damped = true) :
    (P.evaluate abs init sched cells state vel acc control config result).Sat fun r =>
      ∃ view, (name, view) ∈ r.2 ∧ (toMap nelems cells order view none).Sat fun data =>
        ∀ c t, c < cells.length → t < numVoigt P.el.d →
          data.e (atN cells c) t = P.stressForm (state.e c) (vel.e c) (control.e c) (config.e c) t := by
  obtain ⟨w, he, w0, w1, hst⟩ := evaluate_ok abs hd hb hdm hw hv0 hv1 ha0 ha1 hL hs init hr0 hr1
  rw [he, Res.sat_ok]
  refine ⟨w.stress, ?_, (toMap_ok ho hnd hlt w0.ge (by simp)).mono fun data hdat c t hc ht => ?_⟩
  · unfold Dyn.plots
    simp only [List.mem_cons, List.not_mem_nil, or_false] at hname
    rcases hname with rfl | rfl | rfl
    · rw [if_pos hp]
      simp
    · rw [if_pos hp]
      simp
    · rw [if_pos (show P.damped = true ∧ "velgrad" ∈ P.plottable from ⟨hvel rfl, hp⟩)]
      simp
  · rw [hdat.2.2.1 c t hc (by rw [w1]; exact ht)]
    exact hst c t hc ht

/-- **C60**, for the stress: what the residual stores under "stress" is, on every cell of the domain,
the penalised stress. -/
theorem C60_output_partial (hp : "stress" ∈ P.plottable) :
    (P.evaluate abs init sched cells state vel acc control config result).Sat fun r =>
      ∃ view, ("stress", view) ∈ r.2 ∧ (toMap nelems cells order view none).Sat fun data =>
        ∀ c t, c < cells.length → t < numVoigt P.el.d →
          data.e (atN cells c) t =
            outputSpec P "stress" (state.e c) (vel.e c) (control.e c) (config.e c) t :=
  output_stress hd hb hdm hw hv0 hv1 ha0 ha1 hL hs hr0 hr1 ho hnd hlt (by simp) hp (by simp)

end

/-! ## Concrete cases -/

/-- Members for a stiffness of `e` times the unit matrix, density and Rayleigh coefficients. -/
noncomputable def exDyn (d : Nat) (e rho α β : ℝ) : Dyn ℝ :=
  ⟨⟨d, fun i j => if i = j then e else 0, fun _ => 0, id, 1, none, []⟩,
    List.replicate (d + 1) (1 / ((d : ℝ) + 1)), rho, α, β, rayleighDamping α β, ["stress", "strain", "velgrad"]⟩

/-- What the constructor computes meets `DampedOk`. -/
theorem exDyn_damped (d : Nat) (e rho α β : ℝ) : (exDyn d e rho α β).DampedOk := by
  intro h
  simp only [exDyn, rayleighDamping, Bool.or_eq_false_iff, decide_eq_false_iff_not, not_not] at h
  exact h

theorem exDyn_basis (d : Nat) (e rho α β : ℝ) :
    ∑ n ∈ range (d + 1), at0 (exDyn d e rho α β).basis n = 1 :=
  exThermal_basis (d := d) (plateLaw 0) plateMass

theorem exDyn_ok (e rho α β : Nat → ℝ) :
    DynOk square fun k => exDyn 2 (e k) (rho k) (α k) (β k) :=
  ⟨⟨.inr (.inl rfl), rfl, fun _ _ => rfl, fun _ _ _ B hB => by cases hB⟩, fun _ _ => by simp [exDyn, square],
    fun _ _ => exDyn_damped _ _ _ _ _⟩

/-- The hypotheses of the theorems on C59 hold for the square of two triangles with damping: members, cells,
basis, symmetric and positive semidefinite stiffness. -/
example : square.Ok ∧ DynOk square (fun _ => exDyn 2 3 2 (1 / 10) (1 / 5)) ∧
    (∀ c, c < square.nc → goodCell square (fun _ => (exDyn 2 3 2 (1 / 10) (1 / 5)).el) (fun _ => id)
      (square.cellZ [1, 1, 1, 1] c) (square.cellX [0, 0, 1, 0, 0, 1, 1, 1] c)) ∧
    (∑ n ∈ range 3, at0 (exDyn 2 3 2 (1 / 10) (1 / 5)).basis n = 1) ∧
    (∀ t s, (exDyn 2 3 2 (1 / 10) (1 / 5)).el.stiff t s = (exDyn 2 3 2 (1 / 10) (1 / 5)).el.stiff s t) ∧
    ∀ e, 0 ≤ voigtEnergy (exDyn 2 3 2 (1 / 10) (1 / 5)).el e := by
  refine ⟨square_ok, exDyn_ok (fun _ => 3) (fun _ => 2) (fun _ => 1 / 10) fun _ => 1 / 5, fun c hc => ?_,
    exDyn_basis 2 _ _ _ _, fun t s => by simp only [exDyn, eq_comm], fun e => ?_⟩
  · have hc : c < 2 := hc
    interval_cases c <;> refine ⟨?_, fun k _ => penOk_id _⟩ <;> show (_ : ℝ) ≠ 0 <;>
      norm_num [detForm, edge, FeModel.cellX, square, cellNode, FeModel.npc, at0, atN]
  · unfold voigtEnergy
    refine sum_nonneg fun t _ => sum_nonneg fun s _ => ?_
    simp only [exDyn]
    split_ifs with h
    · subst h
      nlinarith [mul_self_nonneg (e t)]
    · simp

/-- A motion that solves the equations: the square at rest. -/
example (init : Nat → Nat → Nat → Nat) :
    ∀ _t : ℝ, (hypValue square (dynamics abs square (fun _ => exDyn 2 3 2 (1 / 10) (1 / 5)) init
      fun k _ => List.range (square.size (square.part k))) (seqHyp square) (List.replicate 8 0) (List.replicate 8 0)
      (List.replicate 8 0) [1, 1, 1, 1] [0, 0, 1, 0, 0, 1, 1, 1]).Sat
        fun r => ∀ q, at0 r q = 0 ∨ at0 (List.replicate 8 (0 : ℝ)) q = 0 := by
  intro _
  refine (C59_work square_ok (exDyn_ok (fun _ => 3) (fun _ => 2) (fun _ => 1 / 10) fun _ => 1 / 5)
    (fun _ _ => IsSchedule.range _) (by simp [square]) (by simp [square]) (by simp [square]) (by simp [square])
    (by simp [square]) (seqHyp_ok square)).mono fun r _ q => .inr ?_
  simp only [at0, List.getElem?_replicate]
  split_ifs <;> rfl

/-- **C60 is false for strains**: a rod of stiffness 2 is stretched to twice its length.  The
strain is 1, and what the residual stores under "strain" is 2. -/
theorem C60_output_false : ∃ (P : Dyn ℝ) (cells : List Nat) (state vel acc control : V2 ℝ) (config : V3 ℝ)
    (result : V2 ℝ) (sched : Nat → List Nat) (init : Nat → Nat → Nat),
    "strain" ∈ P.plottable ∧ P.DampedOk ∧
    outputSpec P "strain" (state.e 0) (vel.e 0) (control.e 0) (config.e 0) 0 = 1 ∧
    (P.evaluate abs init sched cells state vel acc control config result).Sat fun r =>
      ∃ view, ("strain", view) ∈ r.2 ∧ (toMap 1 cells [0] view none).Sat fun data =>
        data.e (atN cells 0) 0 = 2 := by
  have hstrain : (exDyn 1 2 1 0 0).el.strainForm (fun n => if n = 1 then (1 : ℝ) else 0)
      (fun n _ => if n = 1 then 1 else 0) 0 = 1 := by
    have e : detForm 1 (fun n _ => if n = 1 then (1 : ℝ) else 0) = -1 := by
      show (_ : ℝ) = _
      norm_num [detForm, edge]
    have k0 : gradForm 1 (fun n _ => if n = 1 then (1 : ℝ) else 0) 0 0 = -1 := by
      unfold gradForm
      rw [if_pos (by decide), e]
      norm_num [cofForm]
    have k1 : gradForm 1 (fun n _ => if n = 1 then (1 : ℝ) else 0) 1 0 = 1 := by
      unfold gradForm
      rw [if_neg (by decide), sum_range_one, e]
      norm_num [cofForm]
    unfold Elastostatic.strainForm voigtStrain
    have p0 : voigtPair 1 0 = (0, 0) := by decide
    simp only [exDyn, fieldGrad, p0, sum_range_succ, sum_range_zero, k0, k1]
    norm_num
  refine ⟨exDyn 1 2 1 0 0, [0], ⟨1, 2, fun _ n => if n = 1 then 1 else 0⟩, ⟨1, 2, fun _ _ => 0⟩,
    ⟨1, 2, fun _ _ => 0⟩, ⟨1, 2, fun _ _ => 1⟩, ⟨1, 2, 1, fun _ n _ => if n = 1 then 1 else 0⟩,
    ⟨1, 2, fun _ _ => 0⟩, fun _ => [0], fun _ _ => 0, by simp [exDyn], exDyn_damped _ _ _ _ _, ?_, ?_⟩
  · unfold outputSpec
    rw [if_neg (by decide), if_pos rfl]
    exact hstrain
  · refine (output_stress (P := exDyn 1 2 1 0 0) (cells := [0]) (nelems := 1) (order := [0]) (name := "strain")
      (.inl rfl) (by simp [exDyn])
      (exDyn_damped _ _ _ _ _) ⟨le_rfl, le_rfl, le_rfl, le_rfl, le_rfl, rfl, rfl⟩ le_rfl le_rfl le_rfl le_rfl
      (fun L hL => by cases hL) (fun _ => IsSchedule.range 1) le_rfl le_rfl (IsSchedule.range 1) (by simp) (by simp)
      (by simp) (by simp [exDyn]) (by simp)).mono ?_
    rintro r ⟨view, hv, hd⟩
    refine ⟨view, hv, hd.mono fun data h => ?_⟩
    have e0 : data.e (atN [0] 0) 0 = _ := h 0 0 (by simp) (by show 0 < numVoigt 1; decide)
    rw [e0]
    unfold Dyn.stressForm Dyn.solidStress
    have nv : numVoigt (exDyn 1 2 1 0 0).el.d = 1 := by show numVoigt 1 = 1; decide
    rw [nv, sum_range_one]
    dsimp only
    rw [hstrain]
    norm_num [exDyn, meanDensity]

end Plato.Dyn
