import Verif.Tm.Props
import Verif.Dyn.Output

/-!
# Output of thermomechanics, one dimension, and concrete cases

What the residuals store as output.  Undefined behaviour in one dimension.  A clamped body with shear expansion.
-/

namespace Plato.Tm
open Finset Plato Plato.Mech Plato.Thermal Plato.Dyn

/-! ## Output of the steady residual -/

/-- What the names mean on a cell: strain, temperature gradient, penalised stress and flux. -/
noncomputable def outputSpec (P : Tm ℝ) (name : String) (U Z : Nat → ℝ) (X : Nat → Nat → ℝ) (t : Nat) : ℝ :=
  if name = "strain" then P.strainForm U X t
  else if name = "tgrad" then P.gradT U X t
  else if name = "stress" then P.stressForm U Z X t
  else P.fluxForm U Z X t

/-- Components of the view of that name. -/
def outputDim (d : Nat) (name : String) : Nat := if name = "strain" ∨ name = "stress" then numVoigt d else d

section
variable {P : Tm ℝ} (hd : P.d = 2 ∨ P.d = 3) {cells : List Nat} {state control : V2 ℝ} {config : V3 ℝ}
  (hb : P.basis.length = P.d + 1) (hL : P.law.Ok P.d)
  (hw : WsOk P.d (P.d + 1) cells.length state control config)
include hd hb hL hw

/-- **C61**, output: what the steady residual stores under "strain", "tgrad", "stress" and "flux" are, on every
cell of the domain, the strain, the temperature gradient, the penalised stress and the penalised flux. -/
theorem C61_output (hB : ∀ L ∈ P.bodyLoads, L.Ok P.d (P.d + 1) cells) {sched : Nat → List Nat}
    (hs : ∀ k, IsSchedule (sched k) cells.length) {init : Nat → Nat → Nat} {result : V2 ℝ}
    (hr0 : cells.length ≤ result.d0) (hr1 : (P.d + 1) * (P.d + 1) ≤ result.d1)
    {nelems : Nat} {order : List Nat} (ho : IsSchedule order cells.length) (hnd : cells.Nodup)
    (hlt : ∀ g ∈ cells, g < nelems) {name : String} (hname : name ∈ ["strain", "tgrad", "stress", "flux"])
    (hp : name ∈ P.plottable) :
    (P.static abs init sched cells state control config result).Sat fun r =>
      ∃ view, (name, view) ∈ r.2 ∧ (∀ view', (name, view') ∈ r.2 → view' = view) ∧
        (toMap nelems cells order view none).Sat fun data =>
          data.d0 = nelems ∧ data.d1 = outputDim P.d name ∧ ∀ c t, c < cells.length → t < outputDim P.d name →
            data.e (atN cells c) t = outputSpec P name (state.e c) (control.e c) (config.e c) t := by
  obtain ⟨w, he, hok, hk⟩ := static_ok abs hd hb hL hw hB hs init hr0 hr1
  rw [he, Res.sat_ok]
  simp only [List.mem_cons, List.not_mem_nil, or_false] at hname
  rcases hname with rfl | rfl | rfl | rfl
  · refine ⟨w.strain, by unfold Tm.staticPlots; rw [if_pos hp]; simp, fun v' hv' => ?_,
      (toMap_ok ho hnd hlt hok.e0.ge (by simp)).mono fun data hdat =>
        ⟨hdat.1, hdat.2.1.trans hok.e1, fun c t hc ht => ?_⟩⟩
    · unfold Tm.staticPlots at hv'
      revert hv'
      split_ifs <;> simp
    · have ht : t < numVoigt P.d := ht
      rw [hdat.2.2.1 c t hc (by rw [hok.e1]; exact ht)]
      exact (hk c hc).1.strain t ht
  · refine ⟨w.tgrad, by unfold Tm.staticPlots; rw [if_pos (show "tgrad" ∈ P.plottable from hp)]; simp,
      fun v' hv' => ?_, (toMap_ok ho hnd hlt hok.t0.ge (by simp)).mono fun data hdat =>
        ⟨hdat.1, hdat.2.1.trans hok.t1, fun c t hc ht => ?_⟩⟩
    · unfold Tm.staticPlots at hv'
      revert hv'
      split_ifs <;> simp
    · have ht : t < P.d := ht
      rw [hdat.2.2.1 c t hc (by rw [hok.t1]; exact ht)]
      exact (hk c hc).1.tgrad t ht
  · refine ⟨w.stress, by unfold Tm.staticPlots; rw [if_pos (show "stress" ∈ P.plottable from hp)]; simp,
      fun v' hv' => ?_, (toMap_ok ho hnd hlt hok.s0.ge (by simp)).mono fun data hdat =>
        ⟨hdat.1, hdat.2.1.trans hok.s1, fun c t hc ht => ?_⟩⟩
    · unfold Tm.staticPlots at hv'
      revert hv'
      split_ifs <;> simp
    · have ht : t < numVoigt P.d := ht
      rw [hdat.2.2.1 c t hc (by rw [hok.s1]; exact ht)]
      exact (hk c hc).2.stress t ht
  · refine ⟨w.flux, by unfold Tm.staticPlots; rw [if_pos (show "flux" ∈ P.plottable from hp)]; simp,
      fun v' hv' => ?_, (toMap_ok ho hnd hlt hok.f0.ge (by simp)).mono fun data hdat =>
        ⟨hdat.1, hdat.2.1.trans hok.f1, fun c t hc ht => ?_⟩⟩
    · unfold Tm.staticPlots at hv'
      revert hv'
      split_ifs <;> simp
    · have ht : t < P.d := ht
      rw [hdat.2.2.1 c t hc (by rw [hok.f1]; exact ht)]
      exact (hk c hc).2.flux t ht

end

/-! ## Output of the transient residual -/

theorem OutMap.entry_store {m : OutMap ℝ} {e : String × V2 ℝ} : (m.store e).entry e.1 = some e.2 := by
  simp [OutMap.store, OutMap.entry]

theorem OutMap.entry_store_ne {m : OutMap ℝ} {e : String × V2 ℝ} {name : String} (h : name ≠ e.1) :
    (m.store e).entry name = m.entry name := by
  unfold OutMap.store OutMap.entry
  rw [List.find?_cons_of_neg (by simpa using Ne.symm h), List.find?_filter]
  congr 2
  funext f
  by_cases e1 : f.1 = name
  · simp [e1, h]
  · simp [e1]

section
variable {P : Tm ℝ} (hd : P.d = 2 ∨ P.d = 3) {nc : Nat} {state rate control : V2 ℝ} {config : V3 ℝ}
  (hb : P.basis.length = P.d + 1) (hL : P.law.Ok P.d) (hw : WsOk P.d (P.d + 1) nc state control config)
  (hv0 : nc ≤ rate.d0) (hv1 : (P.d + 1) * (P.d + 1) ≤ rate.d1)
include hd hb hL hw hv0 hv1

/-- What the transient residual leaves in the output map: whatever the map held, the entry is the view over the
cells of the domain. -/
theorem transient_output {order : List Nat} (hs : IsSchedule order nc) {init : Nat → Nat → Nat} {result : V2 ℝ}
    (hr0 : nc ≤ result.d0) (hr1 : (P.d + 1) * (P.d + 1) ≤ result.d1) {name : String}
    (hname : name = "strain" ∨ name = "stress") (hp : name ∈ P.plottable) (m : OutMap ℝ) :
    (P.transient abs init order nc state rate control config result).Sat fun r =>
      ∃ view, (r.2.foldl OutMap.store m).entry name = some view ∧ view.d0 = nc ∧ view.d1 = numVoigt P.d ∧
        ∀ c t, c < nc → t < numVoigt P.d →
          view.e c t = outputSpec P name (state.e c) (control.e c) (config.e c) t := by
  obtain ⟨w, he, hok, hk⟩ := transient_ok abs hd hb hL hw hv0 hv1 hs init hr0 hr1
  rw [he, Res.sat_ok]
  rcases hname with rfl | rfl
  · refine ⟨w.strain, ?_, hok.e0, hok.e1, fun c t hc ht => (hk c hc).1.strain t ht⟩
    unfold Tm.transientPlots
    rw [if_pos hp]
    split_ifs
    · simp only [List.singleton_append, List.foldl_cons, List.foldl_nil]
      rw [OutMap.entry_store_ne (by show "strain" ≠ "stress"; decide)]
      exact OutMap.entry_store
    · simp only [List.append_nil, List.foldl_cons, List.foldl_nil]
      exact OutMap.entry_store
  · refine ⟨w.stress, ?_, hok.s0, hok.s1, fun c t hc ht => (hk c hc).2.stress t ht⟩
    unfold Tm.transientPlots
    rw [if_pos (show "stress" ∈ P.plottable from hp), List.foldl_append]
    exact OutMap.entry_store

end

/-- **C62**, output, for a mesh of one domain: if the domain lists the cells of the mesh in their order, what
the residual stores under "strain" and "stress" has a row for every cell of the mesh with its strain and its
penalised stress. -/
theorem C62_output_partial {P : Tm ℝ} (hd : P.d = 2 ∨ P.d = 3) {nc : Nat} {state rate control : V2 ℝ}
    {config : V3 ℝ} (hb : P.basis.length = P.d + 1) (hL : P.law.Ok P.d)
    (hw : WsOk P.d (P.d + 1) nc state control config) (hv0 : nc ≤ rate.d0) (hv1 : (P.d + 1) * (P.d + 1) ≤ rate.d1)
    {order : List Nat} (hs : IsSchedule order nc) {init : Nat → Nat → Nat} {result : V2 ℝ}
    (hr0 : nc ≤ result.d0) (hr1 : (P.d + 1) * (P.d + 1) ≤ result.d1) {name : String}
    (hname : name = "strain" ∨ name = "stress") (hp : name ∈ P.plottable) :
    (P.transient abs init order nc state rate control config result).Sat fun r =>
      ∃ view, (r.2.foldl OutMap.store []).entry name = some view ∧ view.d0 = nc ∧ view.d1 = numVoigt P.d ∧
        ∀ c t, c < nc → t < numVoigt P.d →
          view.e (atN (List.range nc) c) t = outputSpec P name (state.e c) (control.e c) (config.e c) t := by
  refine (transient_output hd hb hL hw hv0 hv1 hs (init := init) hr0 hr1 hname hp []).mono ?_
  rintro r ⟨view, h1, h2, h3, h4⟩
  refine ⟨view, h1, h2, h3, fun c t hc ht => ?_⟩
  have : atN (List.range nc) c = c := by simp [atN, at0, hc]
  rw [this]
  exact h4 c t hc ht

/-- **C62, output, is false for several domains**: of the output of two domains with `n` and `n'` cells, evaluated
one after the other, only the view of the second is left: it has `n'` rows, numbered by the cells of the second
domain, and none for the first. -/
theorem C62_output_false {P P' : Tm ℝ} (hd : P.d = 2 ∨ P.d = 3) (hd' : P'.d = 2 ∨ P'.d = 3) {n n' : Nat}
    {state rate control state' rate' control' : V2 ℝ} {config config' : V3 ℝ} (hb : P.basis.length = P.d + 1)
    (hb' : P'.basis.length = P'.d + 1) (hL : P.law.Ok P.d) (hL' : P'.law.Ok P'.d)
    (hw : WsOk P.d (P.d + 1) n state control config) (hw' : WsOk P'.d (P'.d + 1) n' state' control' config')
    (hv0 : n ≤ rate.d0) (hv1 : (P.d + 1) * (P.d + 1) ≤ rate.d1)
    (hv0' : n' ≤ rate'.d0) (hv1' : (P'.d + 1) * (P'.d + 1) ≤ rate'.d1)
    {order order' : List Nat} (hs : IsSchedule order n) (hs' : IsSchedule order' n') {init init' : Nat → Nat → Nat}
    {result result' : V2 ℝ} (hr0 : n ≤ result.d0) (hr1 : (P.d + 1) * (P.d + 1) ≤ result.d1)
    (hr0' : n' ≤ result'.d0) (hr1' : (P'.d + 1) * (P'.d + 1) ≤ result'.d1) {name : String}
    (hname : name = "strain" ∨ name = "stress") (hp' : name ∈ P'.plottable) :
    (do
      let r ← P.transient abs init order n state rate control config result
      let r' ← P'.transient abs init' order' n' state' rate' control' config' result'
      pure (r'.2.foldl OutMap.store (r.2.foldl OutMap.store [])) : Res (OutMap ℝ)).Sat fun m =>
      ∃ view, m.entry name = some view ∧ view.d0 = n' ∧ ∀ c t, c < n' → t < numVoigt P'.d →
        view.e c t = outputSpec P' name (state'.e c) (control'.e c) (config'.e c) t := by
  obtain ⟨w, he, -⟩ := transient_ok abs hd hb hL hw hv0 hv1 hs init hr0 hr1
  rw [he, Res.ok_bind]
  obtain ⟨r', he', view, h1, h2, -, h4⟩ := transient_output hd' hb' hL' hw' hv0' hv1' hs' (init := init') hr0' hr1' hname
    hp' ((P.transientPlots w).foldl OutMap.store [])
  rw [he', Res.ok_bind, Res.pure_eq, Res.sat_ok]
  exact ⟨view, h1, h2, h4⟩

/-! ## One dimension -/

theorem parFor_ub {σ : Type} {c : Nat} {o : List Nat} {s : σ} {body : Nat → σ → Res σ} (h : body c s = .ub) :
    parFor (c :: o) s body = .ub := by
  unfold parFor
  rw [h]
  rfl

/-- **C61 is false in one dimension**: for every rod with at least one cell and every state, evaluation of the
residual is undefined behaviour, it reads the expansivity outside its array. -/
theorem C61_one_dimension_false {P : Tm ℝ} (hd : P.d = 1) (hb : P.basis.length = 2) (hx : P.law.expand.n = 1)
    {cells : List Nat} (hc : cells ≠ []) {state control : V2 ℝ} {config : V3 ℝ}
    (hw : WsOk 1 2 cells.length state control config) {sched : Nat → List Nat}
    (hs : ∀ k, IsSchedule (sched k) cells.length) (init : Nat → Nat → Nat) (result : V2 ℝ) :
    P.static abs init sched cells state control config result = .ub := by
  obtain ⟨T, hTr, -⟩ := voigtTable_ok (.inl hd : P.d = 1 ∨ P.d = 2 ∨ P.d = 3) init
  unfold Tm.static
  rw [hTr, Res.ok_bind]
  have hlen : (sched 0).length = cells.length := by simpa using (hs 0).length_eq
  obtain ⟨c, o, ho⟩ : ∃ c o, sched 0 = c :: o := by
    cases h : sched 0 with
    | nil => rw [h] at hlen; exact absurd (List.eq_nil_of_length_eq_zero hlen.symm) hc
    | cons c o => exact ⟨c, o, rfl⟩
  have hcl : c < cells.length := by
    have : c ∈ List.range cells.length := (hs 0).mem_iff.1 (by rw [ho]; simp)
    exact List.mem_range.1 this
  have hub : P.front abs state config c (MViews.new P.d cells.length) = .ub := by
    obtain ⟨a0, a1, b0, b1, x0, x1, x2⟩ := hw
    have hd' : P.d = 1 ∨ P.d = 2 ∨ P.d = 3 := .inl hd
    have hok := MViews.new_ok (R := ℝ) P.d cells.length
    generalize (MViews.new P.d cells.length : MViews ℝ) = w at hok
    obtain ⟨g, v, e, tg, σ, q, T, r, m⟩ := w
    obtain ⟨g0, g1, g2, hv, e0, e1, t0, t1, s0, s1, f0, f1, hT, hr, hm⟩ := hok
    replace hv : v.length = cells.length := hv
    replace hT : T.length = cells.length := hT
    dsimp only at g0 g1 g2 e0 e1 t0 t1 s0 s1 f0 f1
    have hlt : ∀ n, n < P.d + 1 → (P.d + 1) * n + P.d < state.d1 := fun n hn => by
      have h2 : n < 2 := by omega
      rw [hd]
      interval_cases n <;> omega
    unfold Tm.front
    dsimp only
    rw [computeGradient_form abs hd' (by omega) (by omega) (by omega) (by omega) g1 g2 (by omega), Res.ok_bind]
    dsimp only
    rw [rd_at0 (by rw [List.length_set]; omega), Res.ok_bind, wr_eq (by rw [List.length_set]; omega), Res.ok_bind,
      tmKinematics_ok (g := V3.cell g c _) hd' (by omega) e1 (by omega) t1 (by omega) (by rw [hd]; omega)
        (by show c < g.d0; omega) g1 g2, Res.ok_bind]
    dsimp only
    rw [interpolate1_ok (by omega) (by omega) (by omega) hlt, Res.ok_bind]
    unfold tmKinetics
    rw [rd_at0 (by rw [List.length_set]; omega), Res.ok_bind]
    have : ∀ T, thermalStrain P.d P.law T = .ub := by
      intro T
      unfold thermalStrain
      rw [hd]
      simp [forRange, forUp, voigtI, voigtJ, rd, Table.read, hx, Bind.bind, Res.bind]
    rw [this]
    rfl
  rw [ho, parFor_ub hub]
  rfl

/-! ## Concrete cases -/

/-- A square of two triangles, each a domain, three unknowns per node. -/
def slab : FeModel :=
  ⟨2, 3, 2, 4, [0, 1, 2, 1, 3, 2], [0, 2, 5, 8, 10], [1, 2, 0, 2, 3, 0, 1, 3, 1, 2], [[0], [1]]⟩

theorem slab_ok : slab.Ok where
  dim := by decide
  ndof := by decide
  mesh := ⟨by decide, by decide⟩
  adj := ⟨by decide, by decide, by decide, by decide, by decide⟩
  graph := by
    intro cell a b hc ha hb
    have ha : a < 3 := ha
    have hb : b < 3 := hb
    have hc : cell < 2 := hc
    interval_cases cell <;> interval_cases a <;> interval_cases b <;> decide
  some_domain := by decide
  cells := by decide

/-- A tensor that does not depend on temperature. -/
noncomputable def constTable (n : Nat) (f : Nat → Nat → ℝ) : Table ℝ := ⟨n, f, 0, 0, 0⟩

/-- Unit stiffness and conductivity, expansivity `α`, scaling `s`. -/
noncomputable def slabLaw (α : Nat → Nat → ℝ) (tref s : ℝ) : TmLaw ℝ :=
  ⟨false, constTable 3 fun i j => if i = j then 1 else 0, constTable 2 α, constTable 2 fun i j => if i = j then 1 else 0,
    tref, s⟩

noncomputable def slabTm (α : Nat → Nat → ℝ) (tref s : ℝ) : Tm ℝ :=
  ⟨2, 1 / 2, List.replicate 3 (1 / ((2 : ℝ) + 1)), slabLaw α tref s, ⟨false, ⟨0, 0, 0⟩, ⟨0, 0, 0⟩, 2, 3⟩, id, [],
    ["strain", "stress"]⟩

theorem slabTm_ok (α : Nat → Nat → ℝ) (tref s : ℝ) : TmOk slab fun _ => slabTm α tref s :=
  ⟨.inl rfl, rfl, fun _ _ => rfl, fun _ _ => by simp [slabTm, slab], fun _ _ => ⟨rfl, rfl, rfl⟩,
    fun _ _ _ B hB => by cases hB⟩

theorem slabTm_basis (α : Nat → Nat → ℝ) (tref s : ℝ) :
    ∑ n ∈ range 3, at0 (slabTm α tref s).basis n = 1 := by
  simp [slabTm, at0, sum_range_succ]
  norm_num

/-- Corners of the square. -/
noncomputable def slabX : List ℝ := [0, 0, 1, 0, 0, 1, 1, 1]

theorem slab_det {c : Nat} (hc : c < 2) : detForm 2 (slab.cellX slabX c) ≠ 0 := by
  interval_cases c <;> show (_ : ℝ) ≠ 0 <;>
    norm_num [detForm, edge, FeModel.cellX, slab, slabX, cellNode, FeModel.npc, at0, atN]

/-- The hypotheses of the theorems on C61 and C62 hold for the square with the expansivities 2 and 1: members,
cells, basis, and the displacements and temperatures of the free expansion from 0 to 1 degree. -/
example : slab.Ok ∧ TmOk slab (fun _ => slabTm (fun i j => if i = j then 2 - i else 0) 0 1) ∧
    (∀ c, c < slab.nc → tmGood slab (fun _ => slabTm (fun i j => if i = j then 2 - i else 0) 0 1) (fun _ => id)
      (slab.cellZ [1, 1, 1, 1] c) (slab.cellX slabX c)) ∧
    (∀ n i, n < slab.nn → i < slab.dim → at0 [(0 : ℝ), 0, 1, 2, 0, 1, 0, 1, 1, 2, 1, 1] (slab.ndof * n + i) =
      0 + ∑ j ∈ range slab.dim, ((if i = j then 2 - (i : ℝ) else 0) + 0) * at0 slabX (slab.dim * n + j)) ∧
    ∀ n, n < slab.nn → at0 [(0 : ℝ), 0, 1, 2, 0, 1, 0, 1, 1, 2, 1, 1] (slab.ndof * n + slab.dim) = 1 := by
  refine ⟨slab_ok, slabTm_ok _ _ _, fun c hc => ⟨slab_det hc, fun k _ => penOk_id _⟩, fun n i hn hi => ?_,
    fun n hn => ?_⟩
  · have hn : n < 4 := hn
    have hi : i < 2 := hi
    interval_cases n <;> interval_cases i <;> norm_num [slab, slabX, at0, sum_range_succ]
  · have hn : n < 4 := hn
    interval_cases n <;> norm_num [slab, at0]

/-- Expansion in shear only. -/
noncomputable def shear (i j : Nat) : ℝ := if i = j then 0 else 1

/-- **C61 is false for shear expansion**: a clamped square whose expansivity has only the component `12` is
heated by one degree.  The thermal stress does work on virtual displacements, and every entry of the residual
vanishes. -/
theorem C61_shear_expansion_false : ∃ (M : FeModel) (P : Nat → Tm ℝ) (init : Nat → Nat → Nat → Nat)
    (eR sch : Nat → Nat → List Nat) (u z x r : List ℝ) (w : Nat → ℝ), M.Ok ∧ TmOk M P ∧
    (∀ k, (P k).bodyLoads = []) ∧ M.value (thermoelastic abs M P init eR) sch u z x = .ok r ∧
    thermoForm expansion M P z x (at0 u) w = -2 ∧ ∀ q, q < M.nn * M.ndof → at0 r q = 0 := by
  obtain ⟨r, e, -, hw⟩ := static_work (M := slab) slab_ok (slabTm_ok shear 0 1) (init := fun _ _ _ => 0)
    (eR := fun k _ => List.range (slab.size (slab.part k))) (fun _ _ => IsSchedule.range _)
    (u := [0, 0, 1, 0, 0, 1, 0, 0, 1, 0, 0, 1]) (z := [1, 1, 1, 1]) (x := slabX) rfl rfl rfl
    (seqSched_ok slab (slab.npc * slab.ndof))
  have hstate : ∀ c n i, c < 2 → n < 3 → i < 3 → dofs slab (at0 [(0 : ℝ), 0, 1, 0, 0, 1, 0, 0, 1, 0, 0, 1]) c (n * 3 + i) =
      if i = 2 then 1 else 0 := by
    intro c n i hc hn hi
    interval_cases c <;> interval_cases n <;> interval_cases i <;>
      norm_num [dofs, cellDof, slab, cellNode, FeModel.npc, at0, atN]
  have hcell : ∀ (θ : TmLaw ℝ → Nat → ℝ → Nat → ℝ) c (W : Nat → ℝ), c < 2 →
      cellThermo θ (slabTm shear 0 1) (slab.cellZ [1, 1, 1, 1] c) (slab.cellX slabX c)
        (dofs slab (at0 [(0 : ℝ), 0, 1, 0, 0, 1, 0, 0, 1, 0, 0, 1]) c) W =
      -((slabTm shear 0 1).volForm abs (slab.cellX slabX c) * meanDensity 3 (slab.cellZ [1, 1, 1, 1] c) *
        ∑ t ∈ range 3, θ (slabTm shear 0 1).law 2 1 t * (slabTm shear 0 1).strainForm W (slab.cellX slabX c) t) := by
    intro θ c W hc
    have eS : ∀ t, (slabTm shear 0 1).strainForm (dofs slab (at0 [(0 : ℝ), 0, 1, 0, 0, 1, 0, 0, 1, 0, 0, 1]) c)
        (slab.cellX slabX c) t = 0 :=
      strain_const (P := slabTm shear 0 1) (.inr (.inl rfl)) (slab_det hc) (b := fun _ => 0) fun n i hn hi => by
        have hi : i < 2 := hi
        have := hstate c n i hc hn (by omega)
        rw [if_neg (by omega)] at this
        exact this
    have hTT : ∀ n, n < 3 → dofs slab (at0 [(0 : ℝ), 0, 1, 0, 0, 1, 0, 0, 1, 0, 0, 1]) c (n * 3 + 2) = 1 :=
      fun n hn => by rw [hstate c n 2 hc hn (by omega), if_pos rfl]
    have eG : ∀ j, j < 2 → (slabTm shear 0 1).gradT (dofs slab (at0 [(0 : ℝ), 0, 1, 0, 0, 1, 0, 0, 1, 0, 0, 1]) c)
        (slab.cellX slabX c) j = 0 :=
      fun j hj => tmGradT_const (P := slabTm shear 0 1) (.inr (.inl rfl)) (slab_det hc) hTT hj
    have eT : (slabTm shear 0 1).tempAt (dofs slab (at0 [(0 : ℝ), 0, 1, 0, 0, 1, 0, 0, 1, 0, 0, 1]) c) = 1 :=
      tempAt_const (P := slabTm shear 0 1) (slabTm_basis _ _ _) fun n hn => by
        rw [show ((slabTm shear 0 1).d + 1) * n + (slabTm shear 0 1).d = n * 3 + 2 from by
          show 3 * n + 2 = n * 3 + 2; ring]
        exact hTT n hn
    unfold cellThermo
    rw [eT]
    simp only [eS]
    have hz : ∑ i ∈ range (slabTm shear 0 1).d, ∑ j ∈ range (slabTm shear 0 1).d, (slabTm shear 0 1).law.scale *
        (slabTm shear 0 1).law.scale * (slabTm shear 0 1).gradT
          (dofs slab (at0 [(0 : ℝ), 0, 1, 0, 0, 1, 0, 0, 1, 0, 0, 1]) c) (slab.cellX slabX c) j *
        (slabTm shear 0 1).law.cond.at (slabTm shear 0 1).law.nonlinear 1 i j *
        (slabTm shear 0 1).gradT W (slab.cellX slabX c) i = 0 :=
      sum_eq_zero fun i _ => sum_eq_zero fun j hj => by
        rw [eG j (mem_range.1 hj), mul_zero, zero_mul, zero_mul]
    rw [hz, add_zero]
    have hst : ∀ t s, (slabTm shear 0 1).law.stiff.at (slabTm shear 0 1).law.nonlinear 1 t s = if t = s then 1 else 0 :=
      fun _ _ => rfl
    rw [show numVoigt (slabTm shear 0 1).d = 3 from rfl, ← mul_neg, ← sum_neg_distrib]
    show _ * meanDensity 3 _ * _ = _
    congr 1
    refine sum_congr rfl fun t ht => ?_
    rw [sum_eq_single t]
    · rw [hst, if_pos rfl]
      show (0 - θ _ 2 1 t) * 1 * _ = _
      ring
    · intro s _ hne
      rw [hst, if_neg (Ne.symm hne), mul_zero, zero_mul]
    · exact fun hni => absurd ht hni
  refine ⟨slab, fun _ => slabTm shear 0 1, _, _, _, _, _, _, r, at0 [0, 0, 0, 0, 0, 0, 1, 0, 0, 1, 0, 0], slab_ok, slabTm_ok _ _ _, fun _ => rfl, e,
    ?_, fun q hq => ?_⟩
  · have hvirt : ∀ c t, c < 2 → t < 3 → (slabTm shear 0 1).strainForm
        (dofs slab (at0 [0, 0, 0, 0, 0, 0, 1, 0, 0, 1, 0, 0]) c) (slab.cellX slabX c) t = if t = 2 then 1 else 0 := by
      intro c t hc ht
      rw [strain_affine (P := slabTm shear 0 1) (.inr (.inl rfl)) (slab_det hc) (b := fun _ => 0)
        (A := fun i j => if i = 0 ∧ j = 1 then 1 else 0) fun n i hn hi => ?_]
      · interval_cases t <;> simp [slabTm, voigtPair]
      · have hn : n < 3 := hn
        have hi : i < 2 := hi
        show dofs slab _ c (n * 3 + i) = 0 + ∑ j ∈ range 2, _
        interval_cases c <;> interval_cases n <;> interval_cases i <;>
          norm_num [dofs, cellDof, slab, slabX, cellNode, FeModel.npc, FeModel.cellX, at0, atN, sum_range_succ]
    have hexp : expansion (slabTm shear 0 1).law 2 1 2 = 2 := by
      norm_num [expansion, voigtPair, slabTm, slabLaw, constTable, Table.at, shear]
    have hone : ∀ c, c < 2 → cellThermo expansion (slabTm shear 0 1) (slab.cellZ [1, 1, 1, 1] c) (slab.cellX slabX c)
        (dofs slab (at0 [(0 : ℝ), 0, 1, 0, 0, 1, 0, 0, 1, 0, 0, 1]) c)
        (dofs slab (at0 [0, 0, 0, 0, 0, 0, 1, 0, 0, 1, 0, 0]) c) = -1 := by
      intro c hc
      rw [hcell _ _ _ hc, sum_range_succ, sum_range_succ, sum_range_one, hvirt c 0 hc (by decide),
        hvirt c 1 hc (by decide), hvirt c 2 hc (by decide), hexp]
      have hv : (slabTm shear 0 1).volForm abs (slab.cellX slabX c) = 1 / 2 := by
        have : |detForm 2 (slab.cellX slabX c)| = 1 := by
          interval_cases c <;> show |(_ : ℝ)| = 1 <;>
            norm_num [detForm, edge, FeModel.cellX, slab, slabX, cellNode, FeModel.npc, at0, atN]
        show |detForm 2 (slab.cellX slabX c)| * (1 / 2) = 1 / 2
        rw [this, one_mul]
      have hm : meanDensity 3 (slab.cellZ [(1 : ℝ), 1, 1, 1] c) = 1 := by
        interval_cases c <;>
          norm_num [meanDensity, slab, FeModel.cellZ, cellNode, sum_range_succ, at0, atN, FeModel.npc]
      rw [hv, hm]
      norm_num
    unfold thermoForm meshForm
    rw [show slab.domains.length = 2 from rfl, sum_range_succ, sum_range_one, show slab.size (slab.part 0) = 1 from rfl,
      show slab.size (slab.part 1) = 1 from rfl, sum_range_one, sum_range_one]
    dsimp only
    rw [hone _ (by decide), hone _ (by decide)]
    norm_num
  · rw [← work_single hq, hw]
    have hl : loadWork slab (fun _ => (slabTm shear 0 1).bodyLoads) [1, 1, 1, 1] (Pi.single q 1) = 0 :=
      sum_eq_zero fun k _ => sum_eq_zero fun c _ => rfl
    rw [hl, sub_zero]
    unfold thermoForm meshForm
    refine sum_eq_zero fun k hk => sum_eq_zero fun c hc => ?_
    dsimp only
    rw [hcell _ _ _ ((slab_ok.domOk k).1 c (mem_range.1 hc)), sum_eq_zero, mul_zero, neg_zero]
    intro t ht
    have : (slabTm shear 0 1).law.normalStrain 2 1 t = 0 := by
      unfold TmLaw.normalStrain
      split_ifs
      · simp [slabTm, slabLaw, constTable, Table.at, shear]
      · rfl
    rw [this, zero_mul]

end Plato.Tm
