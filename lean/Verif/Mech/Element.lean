import Verif.Mech.GradForm
import Verif.Common.Par
import Verif.Crs.Spec

/-!
# The elastostatic element: closed form of `evaluate`

For every mesh domain, every schedule of the three parallel loops and every contents of the
uninitialised index table, over numbers and over automatic differentiation values.
-/

namespace Plato.Mech
open Finset

variable {R : Type} [CommRing R] [Div R] (fabs : R → R)

/-! ## The specification -/

section Spec
variable (P : Elastostatic R)

/-- Volume of a cell with nodes `X`. -/
def Elastostatic.volForm (X : Nat → Nat → R) : R := fabs (detForm P.d X) * P.cubWeight

/-- Strain of a cell. -/
def Elastostatic.strainForm (U : Nat → R) (X : Nat → Nat → R) (t : Nat) : R :=
  voigtStrain P.d (fun n i => U (n * P.d + i)) (gradForm P.d X) t

/-- Stress of the solid material: stiffness times the difference of strain and reference strain, less
the forcing of a cell problem. -/
def Elastostatic.solidStress (U : Nat → R) (X : Nat → Nat → R) (t : Nat) : R :=
  ∑ s ∈ range (numVoigt P.d), (P.strainForm U X s - P.refStrain s) * P.stiff t s

/-- Forcing of a cell problem. -/
def Elastostatic.forcingForm (t : Nat) : R :=
  match P.forcing with
  | some col => P.stiff t col
  | none => 0

/-- Penalised stress. -/
def Elastostatic.stressForm (U Z : Nat → R) (X : Nat → Nat → R) (t : Nat) : R :=
  (P.solidStress U X t - P.forcingForm t) * P.pen (meanDensity (P.d + 1) Z)

/-- Internal force of a cell. -/
def Elastostatic.forceRow (U Z : Nat → R) (X : Nat → Nat → R) : Nat → R :=
  ∑ i ∈ range P.d, ∑ n ∈ range (P.d + 1), Pi.single (n * P.d + i)
    (P.volForm fabs X * nodalForce P.d (P.stressForm U Z X) (gradForm P.d X) n i)

/-- Contribution of a body load to a cell with global ordinal `gc` and position `c` in the domain. -/
def BodyLoad.row (L : BodyLoad R) (d ndof c gc : Nat) (Z : Nat → R) (scale : R) : Nat → R :=
  ∑ p ∈ range L.numPoints, ∑ a ∈ range (d + 1), Pi.single (a * ndof + L.dof)
    (scale * at0 L.weights p * at0 L.det gc * at0 L.values (c * L.numPoints + p) * L.basis.e a p *
      meanDensity (d + 1) Z)

/-- All body loads. -/
def Elastostatic.loadRow (c gc : Nat) (Z : Nat → R) : Nat → R :=
  (P.bodyLoads.map fun L => L.row P.d P.d c gc Z (-1)).sum

end Spec

/-- Addition to the rows of the first `n` cells. -/
def addRows (y : V2 R) (n : Nat) (δ : Nat → Nat → R) : V2 R :=
  ⟨y.d0, y.d1, fun c => if c < n then y.e c + δ c else y.e c⟩

/-! ## Agreement on the entries that exist -/

omit [Div R] in
theorem fieldGrad_congr {d : Nat} {U U' G G' : Nat → Nat → R} {i j : Nat}
    (hU : ∀ n, n < d + 1 → U n i = U' n i) (hG : ∀ n, n < d + 1 → G n j = G' n j) :
    fieldGrad d U G i j = fieldGrad d U' G' i j :=
  sum_congr rfl fun n hn => by rw [hU n (mem_range.1 hn), hG n (mem_range.1 hn)]

theorem voigtPair_lt {d t : Nat} (hd : d = 1 ∨ d = 2 ∨ d = 3) :
    (voigtPair d t).1 < d ∧ (voigtPair d t).2 < d := by
  rcases hd with rfl | rfl | rfl
  · simp [voigtPair]
  · rcases t with _ | _ | _ | t <;> simp [voigtPair]
  · rcases t with _ | _ | _ | _ | _ | _ | t <;> simp [voigtPair]

omit [Div R] in
theorem voigtStrain_congr {d t : Nat} (hd : d = 1 ∨ d = 2 ∨ d = 3) {U U' G G' : Nat → Nat → R}
    (hU : ∀ n i, n < d + 1 → i < d → U n i = U' n i) (hG : ∀ n j, n < d + 1 → j < d → G n j = G' n j) :
    voigtStrain d U G t = voigtStrain d U' G' t := by
  have h := voigtPair_lt (t := t) hd
  have e : ∀ i j, i < d → j < d → fieldGrad d U G i j = fieldGrad d U' G' i j := fun i j hi hj =>
    fieldGrad_congr (fun n hn => hU n i hn hi) fun n hn => hG n j hn hj
  unfold voigtStrain
  rw [e _ _ h.1 h.1, e _ _ h.1 h.2, e _ _ h.2 h.1]

omit [Div R] in
theorem nodalForce_congr {d n i : Nat} (hd : d = 1 ∨ d = 2 ∨ d = 3) (hi : i < d) {σ σ' : Nat → R}
    {G G' : Nat → Nat → R} (hσ : ∀ t, t < numVoigt d → σ t = σ' t) (hG : ∀ j, j < d → G n j = G' n j) :
    nodalForce d σ G n i = nodalForce d σ' G' n i :=
  sum_congr rfl fun j hj => by
    rw [hσ _ (voigtIndex_lt hd hi (mem_range.1 hj)), hG j (mem_range.1 hj)]

/-! ## The loops -/

section Loops
variable {P : Elastostatic R} (hd : P.d = 1 ∨ P.d = 2 ∨ P.d = 3) {nc : Nat} {state control : V2 R}
  {config : V3 R}

/-- Extents of the worksets passed to `evaluate`. -/
structure WsOk (d ndof nc : Nat) (state control : V2 R) (config : V3 R) : Prop where
  s0 : nc ≤ state.d0
  s1 : (d + 1) * ndof ≤ state.d1
  z0 : nc ≤ control.d0
  z1 : d + 1 ≤ control.d1
  x0 : nc ≤ config.d0
  x1 : config.d1 = d + 1
  x2 : config.d2 = d

/-- Extents of the work views. -/
structure Views.Ok (d nc : Nat) (w : Views R) : Prop where
  g0 : w.grad.d0 = nc
  g1 : w.grad.d1 = d + 1
  g2 : w.grad.d2 = d
  v : w.vol.length = nc
  e0 : w.strain.d0 = nc
  e1 : w.strain.d1 = numVoigt d
  s0 : w.stress.d0 = nc
  s1 : w.stress.d1 = numVoigt d

/-- Contents of the work views in a finished cell. -/
structure CellPost (P : Elastostatic R) (state : V2 R) (config : V3 R) (c : Nat) (w : Views R) :
    Prop where
  grad : ∀ n k, n < P.d + 1 → k < P.d → w.grad.e c n k = gradForm P.d (config.e c) n k
  vol : at0 w.vol c = P.volForm fabs (config.e c)
  strain : ∀ t, t < numVoigt P.d → w.strain.e c t = P.strainForm (state.e c) (config.e c) t
  stress : ∀ t, t < numVoigt P.d → w.stress.e c t = P.solidStress (state.e c) (config.e c) t

theorem Views.new_ok (d nc : Nat) : (Views.new d nc : Views R).Ok d nc :=
  ⟨rfl, rfl, rfl, List.length_replicate, rfl, rfl, rfl, rfl⟩

include hd in
theorem stressCell_ok (hw : WsOk P.d P.d nc state control config) {c : Nat} (hc : c < nc) {w : Views R}
    (h : w.Ok P.d nc) (hz : ∀ t, w.strain.e c t = 0) :
    (P.stressCell fabs state config c w).Sat fun w' => w'.Ok P.d nc ∧ CellPost fabs P state config c w' ∧
      ∀ r, r ≠ c → w'.grad.e r = w.grad.e r ∧ at0 w'.vol r = at0 w.vol r ∧
        w'.strain.e r = w.strain.e r ∧ w'.stress.e r = w.stress.e r := by
  obtain ⟨g, v, e, s⟩ := w
  obtain ⟨g0, g1, g2, hv, e0, e1, s0, s1⟩ := h
  replace hv : v.length = nc := hv
  dsimp only at g0 g1 g2 e0 e1 s0 s1 hz
  obtain ⟨a0, a1, -, -, x0, x1, x2⟩ := hw
  unfold Elastostatic.stressCell
  rw [computeGradient_form fabs hd (by omega) x1 x2 (by show c < g.d0; omega) g1 g2 (by show c < v.length; omega), Res.ok_bind]
  dsimp only
  rw [rd_at0 (by rw [List.length_set]; omega), Res.ok_bind, wr_eq (by rw [List.length_set]; omega),
    Res.ok_bind, strain_ok (g := V3.cell g c _) hd (by omega) e1 (by omega) a1 (by show c < g.d0; omega) g1 g2 le_rfl, Res.ok_bind,
    linearStress_ok (strain := V2.row e c _) (by omega) s1 (by show c < e.d0; omega) e1, Res.ok_bind, Res.pure_eq, Res.sat_ok]
  have hG : ∀ n k, n < P.d + 1 → k < P.d → (g.cell c (fun n k => if n < P.d + 1 ∧ k < P.d then
      gradForm P.d (config.e c) n k else g.e c n k)).e c n k = gradForm P.d (config.e c) n k := by
    intro n k hn hk
    simp only [V3.cell, if_true]
    rw [if_pos ⟨hn, hk⟩]
  have hE : ∀ t, t < numVoigt P.d → (if t < numVoigt P.d then
      (if t < P.d then 0 else e.e c t) + voigtStrain P.d (nodal P.d state c) ((g.cell c
        (fun n k => if n < P.d + 1 ∧ k < P.d then gradForm P.d (config.e c) n k else g.e c n k)).e c) t
      else e.e c t) = P.strainForm (state.e c) (config.e c) t := by
    intro t ht
    rw [if_pos ht, hz t, ite_self, zero_add]
    exact voigtStrain_congr hd (fun _ _ _ _ => rfl) hG
  refine ⟨⟨g0, g1, g2, ?_, e0, e1, s0, s1⟩, ⟨hG, ?_, ?_, ?_⟩, ?_⟩
  · simp only [List.length_set]; exact hv
  · rw [at0_set (by rw [List.length_set]; omega), if_pos rfl, at0_set (by omega), if_pos rfl]; rfl
  · intro t ht
    simp only [V2.row, if_true]
    exact hE t ht
  · intro t ht
    simp only [V2.row, if_true]
    rw [if_pos ht]
    refine sum_congr rfl fun s hs => ?_
    rw [hE s (mem_range.1 hs)]
  · intro r hr
    refine ⟨by simp [V3.cell, hr], ?_, by simp [V2.row, hr], by simp [V2.row, hr]⟩
    dsimp only
    rw [at0_set (by rw [List.length_set]; omega), if_neg hr, at0_set (by omega), if_neg hr]

/-- Cells other than `c` are as before. -/
theorem CellPost.frame {r : Nat} {w w' : Views R} (h : CellPost fabs P state config r w)
    (hf : w'.grad.e r = w.grad.e r ∧ at0 w'.vol r = at0 w.vol r ∧
        w'.strain.e r = w.strain.e r ∧ w'.stress.e r = w.stress.e r) :
    CellPost fabs P state config r w' :=
  ⟨by rw [hf.1]; exact h.grad, by rw [hf.2.1]; exact h.vol, by rw [hf.2.2.1]; exact h.strain,
    by rw [hf.2.2.2]; exact h.stress⟩

include hd in
/-- The first loop. -/
theorem stressLoop_ok (hw : WsOk P.d P.d nc state control config) {order : List Nat}
    (hs : IsSchedule order nc) :
    (parFor order (Views.new P.d nc) (P.stressCell fabs state config)).Sat fun w => w.Ok P.d nc ∧
      ∀ c, c < nc → CellPost fabs P state config c w := by
  refine (parFor_sched hs (fun D w => w.Ok P.d nc ∧ (∀ c, c ∉ D → ∀ t, w.strain.e c t = 0) ∧
    ∀ c ∈ D, CellPost fabs P state config c w) ⟨Views.new_ok _ _, fun _ _ _ => rfl, by simp⟩ ?_).mono ?_
  · rintro D c w hc hD - ⟨hok, hz, hp⟩
    refine (stressCell_ok fabs hd hw hc hok (hz c hD)).mono ?_
    rintro w' ⟨hok', hp', hf⟩
    refine ⟨hok', ?_, ?_⟩
    · intro r hr t
      have hne : r ≠ c := by rintro rfl; exact hr (mem_insert_self _ _)
      rw [(hf r hne).2.2.1]
      exact hz r (fun h => hr (mem_insert_of_mem h)) t
    · intro r hr
      by_cases hne : r = c
      · exact hne ▸ hp'
      · exact (hp r ((mem_insert.1 hr).resolve_left hne)).frame fabs (hf r hne)
  · rintro w ⟨hok, -, hp⟩
    exact ⟨hok, fun c hc => hp c (mem_range.2 hc)⟩

include hd in
/-- The second loop. -/
theorem divLoop_ok (hw : WsOk P.d P.d nc state control config) {order : List Nat}
    (hs : IsSchedule order nc) {w : Views R} (hok : w.Ok P.d nc)
    (hp : ∀ c, c < nc → CellPost fabs P state config c w) {T : V2 Nat} (hT0 : T.d0 = P.d)
    (hT1 : T.d1 = P.d) (hT : ∀ i j, i < P.d → j < P.d → T.e i j = voigtIndex P.d i j)
    {stress result : V2 R} (hs0 : stress.d0 = nc) (hs1 : stress.d1 = numVoigt P.d)
    (hst : ∀ c t, c < nc → t < numVoigt P.d →
      stress.e c t = P.solidStress (state.e c) (config.e c) t - P.forcingForm t)
    (hr0 : nc ≤ result.d0) (hr1 : (P.d + 1) * P.d ≤ result.d1) :
    (parFor order (stress, result) (P.divCell T control w)).Sat fun s =>
      s.2 = addRows result nc fun c => P.forceRow fabs (state.e c) (control.e c) (config.e c) := by
  refine (parFor_sched hs (fun D (s : V2 R × V2 R) => (s.1.d0 = nc ∧ s.1.d1 = numVoigt P.d ∧
    ∀ c, c ∉ D → s.1.e c = stress.e c) ∧ s.2 = ⟨result.d0, result.d1, fun c => if c ∈ D then
        result.e c + P.forceRow fabs (state.e c) (control.e c) (config.e c) else result.e c⟩)
    ⟨⟨hs0, hs1, fun _ _ => rfl⟩, by simp⟩ ?_).mono ?_
  · rintro D c ⟨st, out⟩ hc hD - ⟨⟨h0, h1, hz⟩, ho⟩
    dsimp only at h0 h1 hz ho
    have ho0 : out.d0 = result.d0 := by rw [ho]
    have ho1 : out.d1 = result.d1 := by rw [ho]
    have hoc : out.e c = result.e c := by rw [ho]; simp [hD]
    unfold Elastostatic.divCell
    rw [applyWeighting_ok (by have := hw.z0; omega) hw.z1 (by show c < st.d0; omega) (by show _ ≤ st.d1; omega),
      Res.ok_bind]
    conv in stressDivergence _ _ _ _ _ _ _ _ _ _ => rw [← V2.row_self (out) c]
    rw [stressDivergence_ok (1 : R) hd hT0 hT1 hT (by show c < out.d0; omega) (by omega) (by omega) (by show c < st.d0; omega)
      (by show st.d1 = _; omega) (by rw [hok.g0]; exact hc) hok.g1 hok.g2 (by rw [hok.v]; exact hc), Res.ok_bind,
      Res.pure_eq, Res.sat_ok]
    refine ⟨⟨h0, h1, ?_⟩, ?_⟩
    · intro r hr
      have hne : r ≠ c := by rintro rfl; exact hr (mem_insert_self _ _)
      simp only [V2.row, hne, if_false]
      exact hz r fun h => hr (mem_insert_of_mem h)
    · have key : (∑ i ∈ range P.d, ∑ n ∈ range (P.d + 1), Pi.single (n * P.d + i + 0)
          (1 * at0 w.vol c * nodalForce P.d ((st.row c fun t => if t < numVoigt P.d then
            st.e c t * P.pen (meanDensity (P.d + 1) (control.e c)) else st.e c t).e c) (w.grad.e c) n i)) =
          P.forceRow fabs (state.e c) (control.e c) (config.e c) := by
        unfold Elastostatic.forceRow
        refine sum_congr rfl fun i hi => sum_congr rfl fun n hn => ?_
        rw [one_mul, add_zero, (hp c hc).vol, nodalForce_congr hd (mem_range.1 hi)
          (σ' := P.stressForm (state.e c) (control.e c) (config.e c)) (G' := gradForm P.d (config.e c)) ?_
          (fun j hj => (hp c hc).grad n j (mem_range.1 hn) hj)]
        intro t ht
        simp only [V2.row, if_true]
        rw [if_pos ht, hz c hD, hst c t hc ht]
        rfl
      dsimp only
      rw [key, hoc, ho]
      simp only [V2.row, V2.mk.injEq, true_and]
      funext r
      by_cases hne : r = c
      · simp [hne]
      · simp [hne, mem_insert]
  · rintro s ⟨-, h⟩
    simpa [addRows] using h

omit hd in
/-- Extents of the data of a body load. -/
structure BodyLoad.Ok (L : BodyLoad R) (d ndof : Nat) (cells : List Nat) : Prop where
  w : L.numPoints ≤ L.weights.length
  b0 : d + 1 ≤ L.basis.d0
  b1 : L.numPoints ≤ L.basis.d1
  f : cells.length * L.numPoints ≤ L.values.length
  det : ∀ gc ∈ cells, gc < L.det.length
  dof : L.dof < ndof

omit hd in
theorem BodyLoad.get_ok {L : BodyLoad R} {d ndof : Nat} {cells order : List Nat} (h : L.Ok d ndof cells)
    (hs : IsSchedule order cells.length) {control result : V2 R} (hz0 : cells.length ≤ control.d0)
    (hz1 : d + 1 ≤ control.d1) (hr0 : cells.length ≤ result.d0) (hr1 : (d + 1) * ndof ≤ result.d1)
    (scale : R) :
    L.get d ndof cells order control result scale = .ok (addRows result cells.length fun c =>
      L.row d ndof c (atN cells c) (control.e c) scale) := by
  unfold BodyLoad.get
  refine parFor_rows hs (fun c f => f + L.row d ndof c (atN cells c) (control.e c) scale) ?_
  intro c y hc h0 h1
  have hgc : atN cells c < L.det.length := h.det _ (by rw [atN, at0_eq hc]; exact List.getElem_mem hc)
  rw [rd_atN hc, Res.ok_bind, rd_at0 hgc, Res.ok_bind, cellDensity_ok (by omega) hz1, Res.ok_bind]
  conv_lhs => rw [← V2.row_self y c]
  refine forRange_addrow _ _ fun p f hp => ?_
  have hcp : c * L.numPoints + p < L.values.length := by
    have := h.f
    have h2 : (c + 1) * L.numPoints ≤ cells.length * L.numPoints := Nat.mul_le_mul_right _ hc
    rw [Nat.succ_mul] at h2
    omega
  have hw := h.w
  rw [rd_at0 hcp, Res.ok_bind, rd_at0 (by omega), Res.ok_bind]
  refine forRange_addrow _ _ fun a f ha => ?_
  rw [vrd2_ok (by have := h.b0; omega) (by have := h.b1; omega), Res.ok_bind]
  exact accum2_row (by omega) ((dof_lt ha h.dof).trans_le (by omega))

include hd in
/-- **Closed form of `evaluate`**, for every schedule and every contents of the index table. -/
theorem evaluate_ok {cells : List Nat} (hw : WsOk P.d P.d cells.length state control config)
    (hL : ∀ L ∈ P.bodyLoads, L.Ok P.d P.d cells) {sched : Nat → List Nat}
    (hs : ∀ k, IsSchedule (sched k) cells.length) (init : Nat → Nat → Nat) {result : V2 R}
    (hr0 : cells.length ≤ result.d0) (hr1 : (P.d + 1) * P.d ≤ result.d1) :
    P.evaluate fabs init sched cells state control config result =
      .ok (addRows result cells.length fun c =>
        P.forceRow fabs (state.e c) (control.e c) (config.e c) +
          P.loadRow c (atN cells c) (control.e c)) := by
  obtain ⟨T, hTr, hT0, hT1, hT⟩ := voigtTable_ok hd init
  obtain ⟨w, hwr, hok, hp⟩ := stressLoop_ok fabs hd hw (hs 0)
  have hf : ∃ st : V2 R, P.applyForcing (sched 1) w.stress = .ok st ∧ st.d0 = cells.length ∧ st.d1 = numVoigt P.d ∧
      ∀ c t, c < cells.length → t < numVoigt P.d →
        st.e c t = P.solidStress (state.e c) (config.e c) t - P.forcingForm t := by
    unfold Elastostatic.forcingForm Elastostatic.applyForcing
    cases P.forcing with
    | none =>
      exact ⟨_, rfl, hok.s0, hok.s1, fun c t hc ht => by rw [(hp c hc).stress t ht, sub_zero]⟩
    | some col =>
      refine ⟨_, parFor_rows (hs 1) (fun c f t => if t < w.stress.d1 then f t - P.stiff t col else f t) ?_,
        hok.s0, hok.s1, ?_⟩
      · intro c z hc h0 h1
        rw [addForcing_ok (by rw [h0, hok.s0]; exact hc), h1]
      · intro c t hc ht
        simp only [hc, if_true]
        rw [if_pos (by rw [hok.s1]; exact ht), (hp c hc).stress t ht]
  obtain ⟨st, hst, h0, h1, h2⟩ := hf
  obtain ⟨s2, hdr, hs2⟩ := divLoop_ok fabs hd hw (hs 2) hok hp hT0 hT1 hT h0 h1 h2 hr0 hr1
  unfold Elastostatic.evaluate
  rw [hTr, Res.ok_bind, hwr, Res.ok_bind, hst, Res.ok_bind, hdr, Res.ok_bind]
  obtain ⟨s21, s22⟩ := s2
  dsimp only at hs2 ⊢
  have key : ∀ (Ls : List (BodyLoad R)) (y : V2 R) (k : Nat), (∀ L ∈ Ls, L.Ok P.d P.d cells) →
      cells.length ≤ y.d0 → (P.d + 1) * P.d ≤ y.d1 →
      ∃ k', Ls.foldlM (fun (s : V2 R × Nat) L => do
          let y ← L.get P.d P.d cells (sched s.2) control s.1 (-1)
          pure (y, s.2 + 1)) (y, k) = .ok (addRows y cells.length fun c =>
            (Ls.map fun L => L.row P.d P.d c (atN cells c) (control.e c) (-1)).sum, k') := by
    intro Ls
    induction Ls with
    | nil =>
      intro y k _ _ _
      refine ⟨k, ?_⟩
      simp only [List.foldlM_nil, List.map_nil, List.sum_nil, addRows, add_zero, ite_self]
      rfl
    | cons L Ls ih =>
      intro y k hL h0 h1
      rw [List.foldlM_cons, BodyLoad.get_ok (hL L (List.mem_cons_self ..)) (hs _) hw.z0 hw.z1 h0 h1]
      obtain ⟨k', hk⟩ := ih (addRows y cells.length fun c =>
        L.row P.d P.d c (atN cells c) (control.e c) (-1)) (k + 1) (fun M hM => hL M (List.mem_cons_of_mem _ hM)) h0 h1
      refine ⟨k', hk.trans ?_⟩
      congr 2
      simp only [addRows, V2.mk.injEq, true_and]
      funext c
      by_cases hc : c < cells.length
      · simp [hc, add_assoc]
      · simp [hc]
  obtain ⟨k', hk⟩ := key P.bodyLoads s22 3 hL (by rw [hs2]; exact hr0) (by rw [hs2]; exact hr1)
  rw [hk, Res.ok_bind, hs2]
  dsimp only
  rw [Res.pure_eq]
  congr 1
  simp only [addRows, V2.mk.injEq, true_and]
  funext c
  by_cases hc : c < cells.length
  · simp only [hc, if_true, add_assoc]; rfl
  · simp [hc]

end Loops

end Plato.Mech
