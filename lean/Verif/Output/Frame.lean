import Verif.Output.FrameModel

/-!
# Native output (C106)
-/

namespace Plato.Output

open Plato.Mech

variable {K : Type} [Zero K]

/-! ## Specification -/

/-- The degrees of freedom per node and the fields of the problems that `ProblemFactory` creates
(/repo/src/PlatoProblemFactory.hpp:75-213), from the headers `SimplexMechanics.hpp:24`,
`SimplexPlasticity.hpp:25-28`, `SimplexThermoPlasticity.hpp:25-28`,
`SimplexStabilizedMechanics.hpp:25-26`, `SimplexThermomechanics.hpp:25-26` and 54-56,
`SimplexElectromechanics.hpp:24`, `SimplexThermal.hpp:20`. -/
def layout (dim : Nat) (physics pde : String) : Option (Nat × List FieldSpec) :=
  if physics = "Mechanical" ∧ (pde = "Elliptic" ∨ pde = "Hyperbolic") then
    some (dim, [⟨"Displacements", dim, 0⟩])
  else if physics = "Plasticity" ∧ pde = "Elliptic" then
    some (dim + 1, [⟨"Displacements", dim, 0⟩, ⟨"Pressure", 1, dim⟩])
  else if physics = "Thermoplasticity" ∧ pde = "Elliptic" then
    some (dim + 2, [⟨"Displacements", dim, 0⟩, ⟨"Temperature", 1, dim⟩, ⟨"Pressure", 1, dim + 1⟩])
  else if physics = "Stabilized Mechanical" ∧ pde = "Elliptic" then
    some (dim + 1, [⟨"Displacements", dim, 0⟩, ⟨"Pressure", 1, dim⟩])
  else if physics = "Thermal" ∧ (pde = "Elliptic" ∨ pde = "Parabolic") then
    some (1, [⟨"Temperature", 1, 0⟩])
  else if physics = "Electromechanical" then
    some (dim + 1, [⟨"Displacements", dim, 0⟩, ⟨"Potential", 1, dim⟩])
  else if physics = "Stabilized Thermomechanical" ∧ pde = "Elliptic" then
    some (dim + 2, [⟨"Displacements", dim, 0⟩, ⟨"Pressure", 1, dim⟩, ⟨"Temperature", 1, dim + 1⟩])
  else if physics = "Thermomechanical" ∧ (pde = "Elliptic" ∨ pde = "Parabolic") then
    some (dim + 1, [⟨"Displacements", dim, 0⟩, ⟨"Temperature", 1, dim⟩])
  else none

/-- The tag of a field has, for every node and component, the value in the state. -/
def Shows (n D : Nat) (state : List K) (t : Tags K) (f : FieldSpec) : Prop :=
  ∃ data, t f.tag = some (f.comps, data) ∧ data.length = n * f.comps ∧
    ∀ p c, p < n → c < f.comps → at0 data (p * f.comps + c) = at0 state (p * D + (f.off + c))

/-- The tag of an element field has, for every cell and component, the value of the view. -/
def ShowsCells (nelems : Nat) (v : V2 K) (t : Tags K) (name : String) : Prop :=
  ∃ data, t name = some (v.d1, data) ∧ data.length = nelems * v.d1 ∧
    ∀ g i, g < nelems → i < v.d1 → at0 data (g * v.d1 + i) = v.e g i

/-- The tag of an element field with one value per cell. -/
def ShowsCell (nelems : Nat) (v : List K) (t : Tags K) (name : String) : Prop :=
  ∃ data, t name = some (1, data) ∧ data.length = nelems ∧ ∀ g, g < nelems → at0 data g = at0 v g

/-- The names of the entries of a saved state differ. -/
def StateData.Distinct (d : StateData K) : Prop :=
  (d.vectors.map Prod.fst).Nodup ∧ (d.multi.map Prod.fst).Nodup ∧
    ∀ e ∈ d.vectors, ∀ f ∈ d.multi, f.1 ≠ e.1

/-- The tags show all entries of a saved state that have one row per cell. -/
def ShowsData (nelems : Nat) (d : StateData K) (t : Tags K) : Prop :=
  (∀ e ∈ d.vectors, e.2.length = nelems → ShowsCell nelems e.2 t e.1) ∧
  ∀ e ∈ d.multi, e.2.d0 = nelems → ShowsCells nelems e.2 t e.1

/-! ## Copies -/

theorem pos_lt {n C p c : Nat} (hp : p < n) (hc : c < C) : p * C + c < n * C := by
  have : (p + 1) * C ≤ n * C := Nat.mul_le_mul_right _ hp
  rw [Nat.add_mul] at this
  omega

theorem pos_inj {C p q c d : Nat} (hc : c < C) (hd : d < C) (h : p * C + c = q * C + d) :
    p = q ∧ c = d := by
  have h1 : (p * C + c) / C = p := by
    rw [Nat.mul_comm, Nat.mul_add_div (by omega), Nat.div_eq_of_lt hc, Nat.add_zero]
  have h2 : (q * C + d) / C = q := by
    rw [Nat.mul_comm, Nat.mul_add_div (by omega), Nat.div_eq_of_lt hd, Nat.add_zero]
  have hp : p = q := by rw [← h1, ← h2, h]
  subst hp
  exact ⟨rfl, by omega⟩

/-- A loop over rows that writes every component of its row. -/
theorem rows_ok {n C : Nat} {order : List Nat} (ho : IsSchedule order n) {x : Nat → Nat → K}
    {get : Nat → Nat → Res K} (hg : ∀ p c, p < n → c < C → get p c = Res.ok (x p c)) :
    (parFor order (List.replicate (n * C) (0 : K)) fun p out =>
      forRange 0 C out fun c out => do
        let y ← get p c
        wr out (p * C + c) y).Sat fun out => out.length = n * C ∧
      ∀ p c, p < n → c < C → at0 out (p * C + c) = x p c := by
  refine (parFor_sched ho (fun (S : Finset Nat) (out : List K) => out.length = n * C ∧
    ∀ p ∈ S, ∀ c, c < C → at0 out (p * C + c) = x p c) ⟨List.length_replicate, by simp⟩ ?_).mono ?_
  · rintro S p out hp hS - ⟨hl, h⟩
    refine (forRange_inv (fun (m : Nat) (o : List K) => o.length = n * C ∧
      (∀ c, c < m → at0 o (p * C + c) = x p c) ∧
      ∀ q ∈ S, ∀ c, c < C → at0 o (q * C + c) = x q c) (Nat.zero_le _)
      ⟨hl, fun c hc => absurd hc (Nat.not_lt_zero _), h⟩ ?_).mono ?_
    · rintro c o - hc ⟨h1, h2, h3⟩
      have hlt := pos_lt (n := n) hp hc
      rw [hg p c hp hc, Res.ok_bind, wr_eq (by omega), Res.sat_ok]
      refine ⟨by simpa using h1, fun d hd => ?_, fun q hq d hd => ?_⟩
      · rw [at0_set (by omega)]
        by_cases e : d = c
        · subst e; rw [if_pos rfl]
        · rw [if_neg (by omega)]
          exact h2 d (by omega)
      · rw [at0_set (by omega), if_neg, h3 q hq d hd]
        intro e
        obtain ⟨rfl, -⟩ := pos_inj hd hc e
        exact hS hq
    · rintro o ⟨h1, h2, h3⟩
      refine ⟨h1, fun q hq c hc => ?_⟩
      rcases Finset.mem_insert.1 hq with rfl | hq
      · exact h2 c hc
      · exact h3 q hq c hc
  · rintro out ⟨h1, h2⟩
    exact ⟨h1, fun p c hp hc => h2 p (Finset.mem_range.2 hp) c hc⟩

theorem copyNodes_ok {D C off n : Nat} {order : List Nat} (ho : IsSchedule order n) {input : List K}
    (hi : input.length = n * D) (hc : off + C ≤ D) :
    (copyNodes D C off n order input).Sat fun out => out.length = n * C ∧
      ∀ p c, p < n → c < C → at0 out (p * C + c) = at0 input (p * D + (off + c)) :=
  rows_ok ho (x := fun p c => at0 input (p * D + (off + c)))
    (get := fun p c => rd input (p * D + (off + c))) fun p c hp hcc => by
      have := pos_lt (n := n) (C := D) (c := off + c) hp (by omega)
      exact rd_at0 (by omega)

theorem copy2D_ok {order : List Nat} {v : V2 K} (ho : IsSchedule order v.d0) :
    (copy2D order v).Sat fun out => out.length = v.d0 * v.d1 ∧
      ∀ g i, g < v.d0 → i < v.d1 → at0 out (g * v.d1 + i) = v.e g i :=
  rows_ok ho (x := v.e) (get := fun g i => vrd2 v g i) fun g i hg hi => by
    simp [vrd2, hg, hi]

theorem copy1D_ok {order : List Nat} {v : List K} (ho : IsSchedule order v.length) :
    (copy1D order v).Sat fun out => out.length = v.length ∧
      ∀ g, g < v.length → at0 out g = at0 v g := by
  refine (parFor_map ho (fun g _ => at0 v g) ?_ List.length_replicate).mono fun y h => h
  intro i y hi hy
  rw [rd_at0 hi, Res.ok_bind, wr_eq (by omega)]

/-! ## Tags -/

theorem addTag_self (t : Tags K) (n : String) (c : Nat) (d : List K) : addTag t n c d n = some (c, d) :=
  if_pos rfl

theorem addTag_ne (t : Tags K) {n n' : String} (h : n' ≠ n) (c : Nat) (d : List K) :
    addTag t n c d n' = t n' := if_neg h

theorem fieldTags_ok {D n : Nat} {order : List Nat} (ho : IsSchedule order n) {state : List K}
    (hs : state.length = n * D) : ∀ {fs : List FieldSpec} {t : Tags K}, (fs.map (·.tag)).Nodup →
      (∀ f ∈ fs, f.off + f.comps ≤ D) → (fieldTags D n order state fs t).Sat fun t' =>
        (∀ f ∈ fs, Shows n D state t' f) ∧ ∀ name, (∀ f ∈ fs, f.tag ≠ name) → t' name = t name
  | [], t, _, _ => by
    rw [fieldTags, Res.sat_ok]
    exact ⟨by simp, fun _ _ => rfl⟩
  | f :: fs, t, hn, hc => by
    rw [List.map_cons, List.nodup_cons] at hn
    rw [fieldTags]
    refine (copyNodes_ok ho hs (hc f (by simp))).bind ?_
    rintro data ⟨h1, h2⟩
    refine (fieldTags_ok ho hs hn.2 fun g hg => hc g (by simp [hg])).mono ?_
    rintro t' ⟨h3, h4⟩
    refine ⟨fun g hg => ?_, fun name hname => ?_⟩
    · rcases List.mem_cons.1 hg with rfl | hg
      · refine ⟨data, ?_, h1, h2⟩
        rw [h4 g.tag fun f' hf' e => hn.1 (List.mem_map.2 ⟨f', hf', e⟩), addTag_self]
      · exact h3 g hg
    · rw [h4 name fun g hg => hname g (by simp [hg]), addTag_ne _ (Ne.symm (hname f (by simp)))]

/-- A group of fields: rows by step, degrees of freedom per node, fields. -/
abbrev Group (K : Type) := List (List K) × Nat × List FieldSpec

/-- A group fits step `k` of a mesh with `n` nodes. -/
def GroupOk (n k : Nat) (g : Group K) : Prop :=
  g.1 ≠ [] → k < g.1.length ∧ (∀ r ∈ g.1, r.length = n * g.2.1) ∧ ∀ f ∈ g.2.2, f.off + f.comps ≤ g.2.1

/-- The groups of a step as tags. -/
def groupTags (n : Nat) (order : List Nat) (k : Nat) (groups : List (Group K)) (t : Tags K) :
    Res (Tags K) :=
  groups.foldlM (fun t g =>
    if g.1.length = 0 then Res.ok t
    else do
      let row ← rd g.1 k
      fieldTags g.2.1 n order row g.2.2 t) t

theorem groupTags_ok {n k : Nat} {order : List Nat} (ho : IsSchedule order n) :
    ∀ {groups : List (Group K)} {t : Tags K}, (∀ g ∈ groups, GroupOk n k g) →
      ((groups.flatMap (·.2.2)).map (·.tag)).Nodup →
      (groupTags n order k groups t).Sat fun t' =>
        (∀ g ∈ groups, ∀ row, g.1[k]? = some row → ∀ f ∈ g.2.2, Shows n g.2.1 row t' f) ∧
        ∀ name, (∀ g ∈ groups, ∀ f ∈ g.2.2, f.tag ≠ name) → t' name = t name
  | [], t, _, _ => by
    rw [groupTags, List.foldlM_nil, Res.sat_pure]
    exact ⟨by simp, fun _ _ => rfl⟩
  | g :: groups, t, hg, hn => by
    rw [List.flatMap_cons, List.map_append, List.nodup_append] at hn
    obtain ⟨hn1, hn2, hn3⟩ := hn
    rw [groupTags, List.foldlM_cons]
    have hfirst : (if g.1.length = 0 then Res.ok t
      else do
        let row ← rd g.1 k
        fieldTags g.2.1 n order row g.2.2 t).Sat fun t' =>
          (∀ row, g.1[k]? = some row → ∀ f ∈ g.2.2, Shows n g.2.1 row t' f) ∧
          ∀ name, (∀ f ∈ g.2.2, f.tag ≠ name) → t' name = t name := by
      by_cases h0 : g.1.length = 0
      · rw [if_pos h0, Res.sat_ok]
        refine ⟨fun row hrow => ?_, fun _ _ => rfl⟩
        rw [List.length_eq_zero_iff.1 h0] at hrow
        simp at hrow
      · obtain ⟨hk, hr, hf⟩ := hg g (by simp) fun e => h0 (by rw [e]; rfl)
        rw [if_neg h0, rd_eq hk, Res.ok_bind]
        refine (fieldTags_ok ho (hr _ (List.getElem_mem hk)) hn1 hf).mono ?_
        rintro t' ⟨h1, h2⟩
        refine ⟨fun row hrow => ?_, h2⟩
        rw [List.getElem?_eq_getElem hk] at hrow
        cases hrow
        exact h1
    refine hfirst.bind ?_
    rintro t1 ⟨h1, h2⟩
    refine (groupTags_ok ho (fun g' hg' => hg g' (by simp [hg'])) hn2).mono ?_
    rintro t' ⟨h3, h4⟩
    refine ⟨fun g' hg' row hrow f hf => ?_, fun name hname => ?_⟩
    · rcases List.mem_cons.1 hg' with rfl | hg'
      · obtain ⟨data, e1, e2⟩ := h1 row hrow f hf
        refine ⟨data, ?_, e2⟩
        rw [h4 f.tag fun g'' hg'' f' hf' e => ?_, e1]
        exact hn3 f.tag (List.mem_map.2 ⟨f, hf, rfl⟩) f'.tag
          (List.mem_map.2 ⟨f', List.mem_flatMap.2 ⟨g'', hg'', hf'⟩, rfl⟩) e.symm
      · exact h3 g' hg' row hrow f hf
    · rw [h4 name fun g' hg' => hname g' (by simp [hg']), h2 name (hname g (by simp))]

theorem vectorTags_ok {nelems : Nat} {order : List Nat} (ho : IsSchedule order nelems) :
    ∀ {vs : List (String × List K)} {t : Tags K}, (vs.map Prod.fst).Nodup →
      (vectorTags nelems order vs t).Sat fun t' =>
        (∀ e ∈ vs, e.2.length = nelems → ShowsCell nelems e.2 t' e.1) ∧
        ∀ name, (∀ e ∈ vs, e.1 ≠ name) → t' name = t name
  | [], t, _ => by rw [vectorTags, Res.sat_ok]; exact ⟨by simp, fun _ _ => rfl⟩
  | (n, v) :: vs, t, hn => by
    rw [List.map_cons, List.nodup_cons] at hn
    rw [vectorTags]
    by_cases h : v.length = nelems
    · rw [if_pos h]
      refine (copy1D_ok (by rw [h]; exact ho)).bind ?_
      rintro data ⟨h1, h2⟩
      refine (vectorTags_ok ho hn.2).mono ?_
      rintro t' ⟨h3, h4⟩
      refine ⟨fun e he hd => ?_, fun name hname => ?_⟩
      · rcases List.mem_cons.1 he with rfl | he
        · refine ⟨data, ?_, by rw [h1, hd], fun g hg => h2 g (by rw [hd]; exact hg)⟩
          rw [h4 n fun e' he' e => hn.1 (List.mem_map.2 ⟨e', he', e⟩), addTag_self]
        · exact h3 e he hd
      · rw [h4 name fun e he => hname e (by simp [he]), addTag_ne _ (Ne.symm (hname (n, v) (by simp)))]
    · rw [if_neg h]
      refine (vectorTags_ok ho hn.2).mono ?_
      rintro t' ⟨h3, h4⟩
      refine ⟨fun e he hd => ?_, fun name hname => h4 name fun e he => hname e (by simp [he])⟩
      rcases List.mem_cons.1 he with rfl | he
      · exact absurd hd h
      · exact h3 e he hd

theorem multiTags_ok {nelems : Nat} {order : List Nat} (ho : IsSchedule order nelems) :
    ∀ {vs : List (String × V2 K)} {t : Tags K}, (vs.map Prod.fst).Nodup →
      (multiTags nelems order vs t).Sat fun t' =>
        (∀ e ∈ vs, e.2.d0 = nelems → ShowsCells nelems e.2 t' e.1) ∧
        ∀ name, (∀ e ∈ vs, e.1 ≠ name) → t' name = t name
  | [], t, _ => by rw [multiTags, Res.sat_ok]; exact ⟨by simp, fun _ _ => rfl⟩
  | (n, v) :: vs, t, hn => by
    rw [List.map_cons, List.nodup_cons] at hn
    rw [multiTags]
    by_cases h : v.d0 = nelems
    · rw [if_pos h]
      refine (copy2D_ok (by rw [h]; exact ho)).bind ?_
      rintro data ⟨h1, h2⟩
      refine (multiTags_ok ho hn.2).mono ?_
      rintro t' ⟨h3, h4⟩
      refine ⟨fun e he hd => ?_, fun name hname => ?_⟩
      · rcases List.mem_cons.1 he with rfl | he
        · refine ⟨data, ?_, by rw [h1, hd], fun g i hg hi => h2 g i (by rw [hd]; exact hg) hi⟩
          rw [h4 n fun e' he' e => hn.1 (List.mem_map.2 ⟨e', he', e⟩), addTag_self]
        · exact h3 e he hd
      · rw [h4 name fun e he => hname e (by simp [he]), addTag_ne _ (Ne.symm (hname (n, v) (by simp)))]
    · rw [if_neg h]
      refine (multiTags_ok ho hn.2).mono ?_
      rintro t' ⟨h3, h4⟩
      refine ⟨fun e he hd => ?_, fun name hname => h4 name fun e he => hname e (by simp [he])⟩
      rcases List.mem_cons.1 he with rfl | he
      · exact absurd hd h
      · exact h3 e he hd

theorem elementTags_ok {nelems : Nat} {order : List Nat} (ho : IsSchedule order nelems)
    {d : StateData K} (hn : d.Distinct) {t : Tags K} :
    (elementTags nelems order d t).Sat fun t' => ShowsData nelems d t' := by
  unfold elementTags
  refine (vectorTags_ok ho hn.1).bind ?_
  rintro t1 ⟨h1, -⟩
  refine (multiTags_ok ho hn.2.1).mono ?_
  rintro t' ⟨h2, h3⟩
  refine ⟨fun e he hd => ?_, h2⟩
  obtain ⟨data, e1, e2⟩ := h1 e he hd
  exact ⟨data, by rw [h3 e.1 (hn.2.2 e he), e1], e2⟩

/-! ## Steps -/

/-- What a frame shows: the fields of the groups at a step, the controls, and the element data of the
step if they are added and the step was saved. -/
structure FrameOk (n nelems : Nat) (groups : List (Group K)) (elems : Bool)
    (saved : List (StateData K)) (control : List K) (k : Nat) (fr : Frame K) : Prop where
  fields : ∀ g ∈ groups, ∀ row, g.1[k]? = some row → ∀ f ∈ g.2.2, Shows n g.2.1 row fr.nodes f
  control : Shows n 1 control fr.nodes ⟨"Control", 1, 0⟩
  cells : elems = true → ∀ d, saved[k]? = some d → ShowsData nelems d fr.elems

/-- The names of the fields are different from each other and from the one of the controls. -/
def NamesOk (groups : List (Group K)) : Prop :=
  ((groups.flatMap (·.2.2)).map (·.tag)).Nodup ∧ ∀ g ∈ groups, ∀ f ∈ g.2.2, f.tag ≠ "Control"

theorem stepOut_ok {groups : List (Group K)} {elems : Bool} {saved : List (StateData K)}
    {order orderE : List Nat} {index : Nat → Nat} {k : Nat} {m : Mesh K} {control : List K}
    (ho : IsSchedule order m.nverts) (he : IsSchedule orderE m.nelems) (hn : NamesOk groups)
    (hg : ∀ g ∈ groups, GroupOk m.nverts k g)
    (hsv : ∀ d ∈ saved, d.Distinct)
    (hc : Shows m.nverts 1 control m.nodes ⟨"Control", 1, 0⟩) :
    (stepOut groups elems saved order orderE index k m).Sat fun m' =>
      m'.nverts = m.nverts ∧ m'.nelems = m.nelems ∧
      Shows m.nverts 1 control m'.nodes ⟨"Control", 1, 0⟩ ∧
      ((elems = false ∨ saved[k]? = none) → m'.elems = m.elems) ∧
      ∃ fr, m'.frames = m.frames ++ [fr] ∧ fr.index = index k ∧ fr.elems = m'.elems ∧
        FrameOk m.nverts m.nelems groups elems saved control k fr := by
  unfold stepOut
  refine (groupTags_ok ho hg hn.1 (t := m.nodes)).bind ?_
  rintro nodes ⟨h1, h2⟩
  have hctl : Shows m.nverts 1 control nodes ⟨"Control", 1, 0⟩ := by
    obtain ⟨data, e1, e2⟩ := hc
    exact ⟨data, by rw [h2 _ hn.2, e1], e2⟩
  have hel : (stepElems elems saved orderE k m.nelems m.elems).Sat fun el =>
        ((elems = false ∨ saved[k]? = none) → el = m.elems) ∧
        (elems = true → ∀ d, saved[k]? = some d → ShowsData m.nelems d el) := by
    unfold stepElems
    cases elems with
    | false => exact Res.sat_ok.2 ⟨fun _ => rfl, fun e => by cases e⟩
    | true =>
      cases hs : saved[k]? with
      | none => exact Res.sat_ok.2 ⟨fun _ => rfl, fun _ d e => (by cases e)⟩
      | some d =>
        refine (elementTags_ok he (hsv d (List.mem_of_getElem? hs))).mono fun el h =>
          ⟨fun hh => (by rcases hh with hh | hh <;> exact nomatch hh), fun _ d' e => ?_⟩
        cases e
        exact h
  refine hel.bind ?_
  rintro el ⟨h3, h4⟩
  rw [Res.sat_pure]
  exact ⟨rfl, rfl, hctl, h3, _, rfl, rfl, rfl, h1, hctl, h4⟩

theorem steps_ok {groups : List (Group K)} {elems : Bool} {saved : List (StateData K)}
    {order orderE : List Nat} {num : Nat} {m : Mesh K} {control : List K}
    (ho : IsSchedule order m.nverts) (he : IsSchedule orderE m.nelems) (hn : NamesOk groups)
    (hg : ∀ k, k < num → ∀ g ∈ groups, GroupOk m.nverts k g)
    (hsv : ∀ d ∈ saved, d.Distinct)
    (hc : Shows m.nverts 1 control m.nodes ⟨"Control", 1, 0⟩) :
    (steps groups elems saved order orderE num m).Sat fun m' =>
      ∃ new : List (Frame K), m'.frames = m.frames ++ new ∧ new.length = num ∧
        ∀ k (h : k < new.length), new[k].index = k ∧
          FrameOk m.nverts m.nelems groups elems saved control k new[k] ∧
          ((elems = false ∨ saved = []) → new[k].elems = m.elems) := by
  unfold steps
  refine (forRange_inv (fun (j : Nat) (m' : Mesh K) => m'.nverts = m.nverts ∧ m'.nelems = m.nelems ∧
    Shows m.nverts 1 control m'.nodes ⟨"Control", 1, 0⟩ ∧
    ((elems = false ∨ saved = []) → m'.elems = m.elems) ∧
    ∃ new : List (Frame K), m'.frames = m.frames ++ new ∧ new.length = j ∧
      ∀ k (h : k < new.length), new[k].index = k ∧
        FrameOk m.nverts m.nelems groups elems saved control k new[k] ∧
        ((elems = false ∨ saved = []) → new[k].elems = m.elems)) (Nat.zero_le _)
    ⟨rfl, rfl, hc, fun _ => rfl, [], by simp, rfl, fun k h => by simp at h⟩ ?_).mono
    fun m' h => h.2.2.2.2
  rintro j m' - hj ⟨h1, h2, h3, h4, new, h5, h6, h7⟩
  have := stepOut_ok (m := m') (elems := elems) (saved := saved) (index := id) (k := j)
    (control := control) (by rw [h1]; exact ho) (by rw [h2]; exact he) hn
    (fun g hgm => by rw [h1]; exact hg j hj g hgm) hsv (by rw [h1]; exact h3)
  refine this.mono ?_
  rintro m'' ⟨g1, g2, g3, g4, fr, g5, g6, g7, g8⟩
  have hstay : (elems = false ∨ saved = []) → m''.elems = m.elems := fun hh => by
    rw [g4 (hh.imp id fun e => by rw [e]; rfl), h4 hh]
  refine ⟨g1.trans h1, g2.trans h2, by rw [← h1]; exact g3, hstay, new ++ [fr], ?_, ?_, ?_⟩
  · rw [g5, h5, List.append_assoc]
  · simp [h6]
  · intro k hk
    by_cases hkn : k < new.length
    · rw [List.getElem_append_left hkn]
      exact h7 k hkn
    · have hkj : k = j := by
        rw [List.length_append, List.length_singleton] at hk
        omega
      subst hkj
      rw [List.getElem_append_right (by omega), List.getElem_singleton]
      rw [h1, h2] at g8
      exact ⟨g6, g8, fun hh => by rw [g7, hstay hh]⟩

/-! ## Files -/

/-- The sizes of a solution of the problem: one row per step with all degrees of freedom of the nodes,
and for mechanical problems as many rows of rates, or none; an electromechanical problem has one step. -/
structure SolOk (physics : String) (n D : Nat) (sol : Solution K) : Prop where
  state : ∀ r ∈ sol.state, r.length = n * D
  dot : physics = "Mechanical" →
    (sol.dot = [] ∨ sol.dot.length = sol.state.length) ∧ ∀ r ∈ sol.dot, r.length = n * D
  dotdot : physics = "Mechanical" →
    (sol.dotdot = [] ∨ sol.dotdot.length = sol.state.length) ∧ ∀ r ∈ sol.dotdot, r.length = n * D
  single : physics = "Electromechanical" → sol.state.length = 1

/-- The problems whose functions add element data. -/
def WithCells (physics : String) : Prop :=
  physics = "Mechanical" ∨ physics = "Plasticity" ∨ physics = "Stabilized Mechanical" ∨
    physics = "Thermal" ∨ physics = "Thermomechanical"

theorem groupOk_of {n k num D : Nat} {rows : List (List K)} {fs : List FieldSpec}
    (h : rows = [] ∨ rows.length = num) (hk : k < num) (hr : ∀ r ∈ rows, r.length = n * D)
    (hf : ∀ f ∈ fs, f.off + f.comps ≤ D) : GroupOk n k (rows, D, fs) := fun h0 =>
  ⟨by rcases h with h | h
      · exact absurd h h0
      · change k < rows.length
        omega, hr, hf⟩

/-- The frames after a call of `write`: appended ones, one per step, numbered by `index`. -/
def Written (n nelems D : Nat) (fs : List FieldSpec) (sol : Solution K) (control : List K)
    (saved : List (StateData K)) (cells : Prop) (m m' : Mesh K) (index : Nat → Nat) : Prop :=
  ∃ new : List (Frame K), m'.frames = m.frames ++ new ∧ new.length = sol.state.length ∧
    ∀ k (h : k < new.length), new[k].index = index k ∧
      (∀ row, sol.state[k]? = some row → ∀ f ∈ fs, Shows n D row new[k].nodes f) ∧
      Shows n 1 control new[k].nodes ⟨"Control", 1, 0⟩ ∧
      (cells → ∀ d, saved[k]? = some d → ShowsData nelems d new[k].elems)

theorem written_of_steps {n nelems D num : Nat} {fs : List FieldSpec} {sol : Solution K}
    {control : List K} {saved : List (StateData K)} {cells : Prop} {elems : Bool} {m m0 m' : Mesh K}
    {rest : List (Group K)} {gfs : List FieldSpec} (hfs : ∀ f ∈ fs, f ∈ gfs) (hnum : num = sol.state.length)
    (hm : m0.frames = m.frames) (hc : cells → elems = true)
    (h : ∃ new : List (Frame K), m'.frames = m0.frames ++ new ∧ new.length = num ∧
        ∀ k (h : k < new.length), new[k].index = k ∧
          FrameOk n nelems ((sol.state, D, gfs) :: rest) elems saved control k new[k] ∧
          ((elems = false ∨ saved = []) → new[k].elems = m0.elems)) :
    Written n nelems D fs sol control saved cells m m' id := by
  obtain ⟨new, h1, h2, h3⟩ := h
  refine ⟨new, by rw [h1, hm], h2.trans hnum, fun k hk => ?_⟩
  obtain ⟨h4, h5, -⟩ := h3 k hk
  exact ⟨h4, fun row hrow f hf => h5.fields (sol.state, D, gfs) (by simp) row hrow f (hfs f hf),
    h5.control, fun hcc => h5.cells (hc hcc)⟩

/-- **Native output.** For every physics and partial differential equation for which the factory
creates a problem, except "Stabilized Thermomechanical" (see `C106_frames_false`), `write` appends one
frame per step.  Frame `k` has number `k` — 1 for the single step of an electromechanical problem —
shows each field of each node of step `k` under its name, the controls, and, for the problems listed in
`WithCells`, the element data saved at step `k` — for every schedule of the loops and
whatever the mesh carried before. -/
theorem C106_frames_partial {physics pde : String} {dim D : Nat} {fs : List FieldSpec}
    (hl : layout dim physics pde = some (D, fs)) (hst : physics ≠ "Stabilized Thermomechanical")
    (hdim : dim = 1 ∨ dim = 2 ∨ dim = 3) {m : Mesh K} {order orderE : List Nat}
    (ho : IsSchedule order m.nverts) (he : IsSchedule orderE m.nelems) {sol : Solution K}
    (hs : SolOk physics m.nverts D sol) {control : List K} (hc : control.length = m.nverts)
    {saved : List (StateData K)} (hsv : ∀ d ∈ saved, d.Distinct) :
    (write physics pde dim sol control saved order orderE m).Sat fun m' =>
      Written m.nverts m.nelems D fs sol control saved (WithCells physics) m m'
        (fun k => if physics = "Electromechanical" then 1 else k) := by
  unfold write
  refine (copyNodes_ok (D := 1) (C := 1) (off := 0) ho (by omega) (by omega)).bind ?_
  rintro c ⟨c1, c2⟩
  dsimp only
  rw [if_pos hdim]
  have hctl : Shows m.nverts 1 control (addTag m.nodes "Control" 1 c) ⟨"Control", 1, 0⟩ :=
    ⟨c, addTag_self _ _ _ _, c1, fun p i hp hi => c2 p i hp hi⟩
  have hst0 : ∀ (gfs : List FieldSpec), (∀ f ∈ gfs, f.off + f.comps ≤ D) → ∀ k, k < sol.state.length →
      GroupOk m.nverts k (sol.state, D, gfs) := fun gfs hf k hk =>
    groupOk_of (Or.inr rfl) hk hs.state hf
  unfold layout at hl
  split_ifs at hl with l1 l2 l3 l4 l5 l6 l7 l8 <;> cases hl
  · obtain ⟨rfl, -⟩ := l1
    change (steps _ true saved order orderE _ _).Sat _
    refine (steps_ok (m := { m with nodes := addTag m.nodes "Control" 1 c })
      (control := control) ho he ?_ ?_ hsv hctl).mono fun m' h =>
      written_of_steps (fun f hf => hf) rfl rfl (fun _ => rfl) h
    · exact ⟨by simp, by simp⟩
    · intro k hk g hg
      simp only [List.mem_cons, List.not_mem_nil, or_false] at hg
      rcases hg with rfl | rfl | rfl
      · exact hst0 _ (by simp) k hk
      · exact groupOk_of (hs.dot rfl).1 hk (hs.dot rfl).2 (by simp)
      · exact groupOk_of (hs.dotdot rfl).1 hk (hs.dotdot rfl).2 (by simp)
  · obtain ⟨rfl, -⟩ := l2
    change (steps _ true saved order orderE _ _).Sat _
    refine (steps_ok (m := { m with nodes := addTag m.nodes "Control" 1 c })
      (control := control) ho he ?_ ?_ hsv hctl).mono fun m' h =>
      written_of_steps (fun f hf => hf) rfl rfl (fun _ => rfl) h
    · exact ⟨by simp, by simp⟩
    · intro k hk g hg
      rw [List.mem_singleton] at hg
      subst hg
      exact hst0 _ (by simp) k hk
  · obtain ⟨rfl, -⟩ := l3
    change (steps _ false saved order orderE _ _).Sat _
    refine (steps_ok (m := { m with nodes := addTag m.nodes "Control" 1 c })
      (control := control) ho he ?_ ?_ hsv hctl).mono fun m' h =>
      written_of_steps (fun f hf => ?_) rfl rfl (fun w : WithCells "Thermoplasticity" => absurd w (by simp [WithCells])) h
    · exact ⟨by simp, by simp⟩
    · intro k hk g hg
      rw [List.mem_singleton] at hg
      subst hg
      exact hst0 _ (by simp) k hk
    · simp only [List.mem_cons, List.not_mem_nil, or_false] at hf ⊢
      tauto
  · obtain ⟨rfl, -⟩ := l4
    change (steps _ true saved order orderE _ _).Sat _
    refine (steps_ok (m := { m with nodes := addTag m.nodes "Control" 1 c })
      (control := control) ho he ?_ ?_ hsv hctl).mono fun m' h =>
      written_of_steps (fun f hf => hf) rfl rfl (fun _ => rfl) h
    · exact ⟨by simp, by simp⟩
    · intro k hk g hg
      rw [List.mem_singleton] at hg
      subst hg
      exact hst0 _ (by simp) k hk
  · obtain ⟨rfl, -⟩ := l5
    change (steps _ true saved order orderE _ _).Sat _
    refine (steps_ok (m := { m with nodes := addTag m.nodes "Control" 1 c })
      (control := control) ho he ?_ ?_ hsv hctl).mono fun m' h =>
      written_of_steps (fun f hf => hf) rfl rfl (fun _ => rfl) h
    · exact ⟨by simp, by simp⟩
    · intro k hk g hg
      rw [List.mem_singleton] at hg
      subst hg
      exact hst0 _ (by simp) k hk
  · subst l6
    unfold output
    rw [if_pos rfl]
    unfold electromechanical
    have h1 := hs.single rfl
    refine (stepOut_ok (m := { m with nodes := addTag m.nodes "Control" 1 c })
      (control := control) ho he ?_ ?_ (by simp) hctl).mono ?_
    · exact ⟨by simp, by simp⟩
    · intro g hg
      rw [List.mem_singleton] at hg
      subst hg
      exact hst0 _ (by simp) 0 (by omega)
    · rintro m' ⟨-, -, -, -, fr, f1, f2, -, f3⟩
      refine ⟨[fr], f1, by rw [h1]; rfl, fun k hk => ?_⟩
      have hk0 : k = 0 := by simpa using hk
      subst hk0
      exact ⟨f2, fun row hrow f hf => f3.fields _ (List.mem_singleton.2 rfl) row hrow f hf, f3.control,
        fun w => by simp [WithCells] at w⟩
  · exact absurd l7.1 hst
  · obtain ⟨rfl, hp⟩ := l8
    have hp' : pde ≠ "Stabilized Elliptic" := by rcases hp with rfl | rfl <;> decide
    unfold output
    rw [if_neg (by decide), if_pos rfl, if_neg hp']
    refine (steps_ok (m := { m with nodes := addTag m.nodes "Control" 1 c })
      (control := control) ho he ?_ ?_ hsv hctl).mono fun m' h =>
      written_of_steps (fun f hf => hf) rfl rfl (fun _ => rfl) h
    · exact ⟨by simp, by simp⟩
    · intro k hk g hg
      rw [List.mem_singleton] at hg
      subst hg
      exact hst0 _ (by simp) k hk

/-- **Rates of mechanical problems.** The frames of a mechanical problem show velocities and
accelerations of their steps, when there are any. -/
theorem C106_rates {pde : String} {dim : Nat} (hdim : dim = 1 ∨ dim = 2 ∨ dim = 3) {m : Mesh K}
    {order orderE : List Nat} (ho : IsSchedule order m.nverts) (he : IsSchedule orderE m.nelems)
    {sol : Solution K} (hs : SolOk "Mechanical" m.nverts dim sol) {control : List K}
    (hc : control.length = m.nverts) {saved : List (StateData K)}
    (hsv : ∀ d ∈ saved, d.Distinct) :
    (write "Mechanical" pde dim sol control saved order orderE m).Sat fun m' =>
      ∃ new : List (Frame K), m'.frames = m.frames ++ new ∧ new.length = sol.state.length ∧
        ∀ k (h : k < new.length),
          (∀ row, sol.dot[k]? = some row → Shows m.nverts dim row new[k].nodes ⟨"Velocity", dim, 0⟩) ∧
          ∀ row, sol.dotdot[k]? = some row →
            Shows m.nverts dim row new[k].nodes ⟨"Acceleration", dim, 0⟩ := by
  unfold write
  refine (copyNodes_ok (D := 1) (C := 1) (off := 0) ho (by omega) (by omega)).bind ?_
  rintro c ⟨c1, c2⟩
  dsimp only
  rw [if_pos hdim]
  have hctl : Shows m.nverts 1 control (addTag m.nodes "Control" 1 c) ⟨"Control", 1, 0⟩ :=
    ⟨c, addTag_self _ _ _ _, c1, fun p i hp hi => c2 p i hp hi⟩
  change (steps _ true saved order orderE _ _).Sat _
  refine (steps_ok (m := { m with nodes := addTag m.nodes "Control" 1 c })
      (control := control) ho he ?_ ?_ hsv hctl).mono ?_
  · exact ⟨by simp, by simp⟩
  · intro k hk g hg
    simp only [List.mem_cons, List.not_mem_nil, or_false] at hg
    rcases hg with rfl | rfl | rfl
    · exact groupOk_of (Or.inr rfl) hk hs.state (by simp)
    · exact groupOk_of (hs.dot rfl).1 hk (hs.dot rfl).2 (by simp)
    · exact groupOk_of (hs.dotdot rfl).1 hk (hs.dotdot rfl).2 (by simp)
  · rintro m' ⟨new, h1, h2, h3⟩
    refine ⟨new, h1, h2, fun k hk => ?_⟩
    obtain ⟨-, h5, -⟩ := h3 k hk
    exact ⟨fun row hrow => h5.fields (sol.dot, dim, [⟨"Velocity", dim, 0⟩]) (by simp) row hrow _
        (List.mem_singleton.2 rfl),
      fun row hrow => h5.fields (sol.dotdot, dim, [⟨"Acceleration", dim, 0⟩]) (by simp) row hrow _
        (List.mem_singleton.2 rfl)⟩

/-- **No output for stabilised thermomechanics.** The factory creates a problem for this physics, but
`output` has no branch for it: whatever the solution, no frame is written. -/
theorem C106_frames_false {dim : Nat} (hdim : dim = 1 ∨ dim = 2 ∨ dim = 3) :
    (∃ D fs, layout dim "Stabilized Thermomechanical" "Elliptic" = some (D, fs)) ∧
    ∀ {m : Mesh K} {order orderE : List Nat}, IsSchedule order m.nverts → ∀ {sol : Solution K}
      {control : List K}, control.length = m.nverts → ∀ {saved : List (StateData K)},
      (write "Stabilized Thermomechanical" "Elliptic" dim sol control saved order orderE m).Sat
        fun m' => m'.frames = m.frames := by
  refine ⟨⟨_, _, rfl⟩, fun {m order orderE} ho {sol control} hc {saved} => ?_⟩
  unfold write
  refine (copyNodes_ok (D := 1) (C := 1) (off := 0) ho (by omega) (by omega)).bind fun c _ => ?_
  dsimp only
  rw [if_pos hdim]
  change (Res.ok _).Sat _
  exact Res.sat_ok.2 rfl

/-- **Element data that never appear.** Thermoplastic and electromechanical problems save element data
at each step, but their frames carry the element tags the mesh had before, whatever was saved; and so
do the frames of a problem that saves none, such as the stabilised mechanical one. -/
theorem C106_cells_false {physics pde : String} {dim D : Nat} {fs : List FieldSpec}
    (hl : layout dim physics pde = some (D, fs)) {saved : List (StateData K)}
    (hp : physics = "Thermoplasticity" ∨ physics = "Electromechanical" ∨
      physics = "Stabilized Mechanical" ∧ saved = [])
    (hdim : dim = 1 ∨ dim = 2 ∨ dim = 3) {m : Mesh K} {order orderE : List Nat}
    (ho : IsSchedule order m.nverts) (he : IsSchedule orderE m.nelems) {sol : Solution K}
    (hs : SolOk physics m.nverts D sol) {control : List K} (hc : control.length = m.nverts)
    (hsv : ∀ d ∈ saved, d.Distinct) :
    (write physics pde dim sol control saved order orderE m).Sat fun m' =>
      ∃ new : List (Frame K), m'.frames = m.frames ++ new ∧ new.length = sol.state.length ∧
        ∀ fr ∈ new, fr.elems = m.elems := by
  unfold write
  refine (copyNodes_ok (D := 1) (C := 1) (off := 0) ho (by omega) (by omega)).bind ?_
  rintro c ⟨c1, c2⟩
  dsimp only
  rw [if_pos hdim]
  have hctl : Shows m.nverts 1 control (addTag m.nodes "Control" 1 c) ⟨"Control", 1, 0⟩ :=
    ⟨c, addTag_self _ _ _ _, c1, fun p i hp hi => c2 p i hp hi⟩
  have fin : ∀ {elems : Bool} {groups : List (Group K)} {m0 m' : Mesh K}, elems = false ∨ saved = [] →
      m0.frames = m.frames → m0.elems = m.elems →
      (∃ new : List (Frame K), m'.frames = m0.frames ++ new ∧ new.length = sol.state.length ∧
        ∀ k (h : k < new.length), new[k].index = k ∧
          FrameOk m.nverts m.nelems groups elems saved control k new[k] ∧
          ((elems = false ∨ saved = []) → new[k].elems = m0.elems)) →
      ∃ new : List (Frame K), m'.frames = m.frames ++ new ∧ new.length = sol.state.length ∧
        ∀ fr ∈ new, fr.elems = m.elems := by
    rintro elems groups m0 m' hh e1 e2 ⟨new, h1, h2, h3⟩
    refine ⟨new, by rw [h1, e1], h2, fun fr hfr => ?_⟩
    obtain ⟨k, hk, rfl⟩ := List.getElem_of_mem hfr
    rw [(h3 k hk).2.2 hh, e2]
  rcases hp with rfl | rfl | ⟨rfl, hsv0⟩
  · have hD : D = dim + 2 := by
      unfold layout at hl
      simp at hl
      exact hl.2.1.symm
    subst hD
    change (steps _ false saved order orderE _ _).Sat _
    refine (steps_ok (m := { m with nodes := addTag m.nodes "Control" 1 c })
      (control := control) ho he ⟨by simp, by simp⟩ ?_ hsv hctl).mono fun m' h =>
      fin (Or.inl rfl) rfl rfl h
    intro k hk g hg
    rw [List.mem_singleton] at hg
    subst hg
    exact groupOk_of (Or.inr rfl) hk hs.state (by simp)
  · have hD : D = dim + 1 := by
      unfold layout at hl
      simp at hl
      exact hl.1.symm
    subst hD
    unfold output
    rw [if_pos rfl]
    unfold electromechanical
    have h1 := hs.single rfl
    refine (stepOut_ok (m := { m with nodes := addTag m.nodes "Control" 1 c })
      (control := control) ho he ⟨by simp, by simp⟩ ?_ (by simp) hctl).mono ?_
    · intro g hg
      rw [List.mem_singleton] at hg
      subst hg
      exact groupOk_of (num := sol.state.length) (Or.inr rfl) (by omega) hs.state (by simp)
    · rintro m' ⟨-, -, -, g4, fr, f1, f2, f4, f3⟩
      refine ⟨[fr], f1, by rw [h1]; rfl, fun fr' hfr => ?_⟩
      rw [List.mem_singleton] at hfr
      subst hfr
      rw [f4, g4 (Or.inl rfl)]
  · have hD : D = dim + 1 := by
      unfold layout at hl
      simp at hl
      exact hl.2.1.symm
    subst hD
    change (steps _ true saved order orderE _ _).Sat _
    refine (steps_ok (m := { m with nodes := addTag m.nodes "Control" 1 c })
      (control := control) ho he ⟨by simp, by simp⟩ ?_ hsv hctl).mono fun m' h =>
      fin (Or.inr hsv0) rfl rfl h
    intro k hk g hg
    rw [List.mem_singleton] at hg
    subst hg
    exact groupOk_of (Or.inr rfl) hk hs.state (by simp)

/-! ## A case -/

/-- Two nodes, one cell, nothing written. -/
def meshEx : Mesh Int := ⟨2, 1, fun _ => none, fun _ => none, []⟩

/-- Two steps of a thermal problem. -/
def solEx : Solution Int := ⟨[[1, 2], [3, 4]], [], []⟩

/-- A flux of one cell, saved at both steps. -/
def savedEx : List (StateData Int) :=
  [⟨[], [("flux", ⟨1, 2, fun _ i => i⟩)]⟩, ⟨[], [("flux", ⟨1, 2, fun _ i => 5 + i⟩)]⟩]

example : ∃ D fs, layout 2 "Thermal" "Parabolic" = some (D, fs) ∧ SolOk "Thermal" meshEx.nverts D solEx ∧
    IsSchedule [1, 0] meshEx.nverts ∧ IsSchedule [0] meshEx.nelems ∧
    ∀ d ∈ savedEx, d.Distinct :=
  ⟨1, _, rfl, ⟨by decide, by simp, by simp, by simp⟩, by unfold IsSchedule; decide,
    by unfold IsSchedule; decide, by simp [savedEx, StateData.Distinct]⟩

end Plato.Output
