import Verif.Field.Props

/-!
# Inputs of initial states that are refused, and that are not (C104)
-/

namespace Plato.Field

variable {K : Type} [Zero K]

/-! ## Accepted inputs -/

theorem construct_inv {init : String → Res (List K)} : ∀ {ps : Params} {cfs : List (String × List K)},
    construct init ps = Res.ok cfs → ∀ c v, (c, v) ∈ cfs → ∃ fn, (c, Entry.list (some fn)) ∈ ps
  | [], cfs, h, c, v, hm => by
    rw [construct] at h; cases h; simp at hm
  | (_, .other) :: _, _, h, _, _, _ => by rw [construct] at h; cases h
  | (_, .list none) :: _, _, h, _, _, _ => by rw [construct] at h; cases h
  | (name, .list (some fn)) :: ps, cfs, h, c, v, hm => by
    rw [construct] at h
    cases hi : init fn with
    | ok w =>
      rw [hi, Res.ok_bind] at h
      cases hc : construct init ps with
      | ok cs =>
        rw [hc, Res.ok_bind] at h
        cases h
        rcases List.mem_cons.1 hm with e | hm
        · cases e
          exact ⟨fn, by simp⟩
        · obtain ⟨fn', h'⟩ := construct_inv hc c v hm
          exact ⟨fn', List.mem_cons_of_mem _ h'⟩
      | err m => rw [hc] at h; cases h
      | ub => rw [hc] at h; cases h
    | err m => rw [hi] at h; cases h
    | ub => rw [hi] at h; cases h

theorem getNamed_inv {order : List Nat} {cfs : List (String × List K)} {c : String} {off : Int}
    {D : Nat} {u w : List K} (h : getNamed order cfs c off D u = Res.ok w) : ∃ v, (c, v) ∈ cfs := by
  unfold getNamed at h
  cases hf : cfs.find? (fun cf => cf.1 = c) with
  | some cf =>
    have h1 := List.find?_some hf
    have h2 := List.mem_of_find?_eq_some hf
    have h1 : cf.1 = c := by simpa using h1
    exact ⟨cf.2, by rw [← h1]; exact h2⟩
  | none => rw [hf] at h; cases h

theorem firstIndex_mem {name : String} {ds : List String} (h : firstIndex name ds 0 ≠ -1) :
    name ∈ ds := by
  by_contra hm
  exact h (firstIndex_notMem ds 0 hm)

theorem hypEntries_inv {order : List Nat} {cfs : List (String × List K)} {dofs dots : List String} :
    ∀ {I : Params} {s s' : List K × List K}, hypEntries order cfs dofs dots I s = Res.ok s' →
      ∀ name t, (name, Entry.list t) ∈ I → name ∈ dofs ++ dots ∧ ∃ c, t = some c ∧ ∃ v, (c, v) ∈ cfs
  | [], _, _, _, _, _, hm => by simp at hm
  | (_, .other) :: I, s, s', h, name, t, hm => by
    rw [hypEntries] at h
    rcases List.mem_cons.1 hm with e | hm
    · cases e
    · exact hypEntries_inv h name t hm
  | (_, .list none) :: _, _, _, h, _, _, _ => by rw [hypEntries] at h; cases h
  | (a, .list (some c)) :: I, (u, v), s', h, name, t, hm => by
    rw [hypEntries] at h
    by_cases h1 : firstIndex a dofs 0 ≠ -1
    · rw [if_pos h1] at h
      cases hg : getNamed order cfs c (firstIndex a dofs 0) dofs.length u with
      | ok w =>
        rw [hg, Res.ok_bind] at h
        rcases List.mem_cons.1 hm with e | hm
        · cases e
          exact ⟨List.mem_append_left _ (firstIndex_mem h1), c, rfl, getNamed_inv hg⟩
        · exact hypEntries_inv h name t hm
      | err m => rw [hg] at h; cases h
      | ub => rw [hg] at h; cases h
    · rw [if_neg h1] at h
      by_cases h2 : firstIndex a dots 0 ≠ -1
      · rw [if_pos h2] at h
        cases hg : getNamed order cfs c (firstIndex a dots 0) dots.length v with
        | ok w =>
          rw [hg, Res.ok_bind] at h
          rcases List.mem_cons.1 hm with e | hm
          · cases e
            exact ⟨List.mem_append_right _ (firstIndex_mem h2), c, rfl, getNamed_inv hg⟩
          · exact hypEntries_inv h name t hm
        | err m => rw [hg] at h; cases h
        | ub => rw [hg] at h; cases h
      · rw [if_neg h2] at h
        cases h

/-- **C104**: the hyperbolic problem refuses every input with an initial state for a name that is no
displacement and no velocity, for a field that is not computed, or without computed fields. -/
theorem C104_refused {init : String → Res (List K)} {n D : Nat} {dofs dots : List String}
    {inp : Input} {order : List Nat} {I : Params} {s : List K × List K}
    (hI : inp.initial = some I) (h : hyperbolic init order n D dofs dots inp = Res.ok s) :
    ∃ C, inp.computed = some C ∧ StateOk C (dofs ++ dots) I := by
  unfold hyperbolic withFields at h
  cases hc : inp.computed with
  | none =>
    rw [hc, hI, constructed, Res.ok_bind] at h
    cases h
  | some C =>
    refine ⟨C, rfl, ?_⟩
    rw [hc, hI, constructed] at h
    cases hcs : construct init C with
    | ok cfs =>
      rw [hcs] at h
      have h' : hypEntries order cfs dofs dots I _ = Res.ok s := h
      intro name t hm
      obtain ⟨h1, c, h2, v, h3⟩ := hypEntries_inv h' name t hm
      obtain ⟨fn, h4⟩ := construct_inv hcs c v h3
      exact ⟨h1, c, h2, fn, h4⟩
    | err m => rw [hcs] at h; cases h
    | ub => rw [hcs] at h; cases h

/-! ## Unknown names in the parabolic problem -/

theorem parFor_ub {σ : Type} {body : Nat → σ → Res σ} (Inv : σ → Prop) {j : Nat}
    (hj : ∀ s, Inv s → body j s = Res.ub) : ∀ {order : List Nat} {s : σ}, Inv s →
      (∀ i ∈ order, ∀ s, Inv s → body i s = Res.ub ∨ (body i s).Sat Inv) → j ∈ order →
      parFor order s body = Res.ub
  | [], _, _, _, h => by simp at h
  | i :: is, s, hs, hb, h => by
    rw [parFor]
    rcases hb i (by simp) s hs with hu | ⟨s', e, hs'⟩
    · rw [hu]; rfl
    · rw [e, Res.ok_bind]
      rcases List.mem_cons.1 h with e' | h
      · subst e'
        rw [hj s hs] at e
        cases e
      · exact parFor_ub Inv hj hs' (fun i hi => hb i (by simp [hi])) h

/-- An initial state for a name that the parabolic problem does not know is written in front of the
array: undefined behaviour, on every mesh and for every schedule. -/
theorem C104_unknown_name_false {init : String → Res (List K)} {n D : Nat} {F : String → Nat → K}
    {inp : Input} {C : Params} {name c fn : String}
    (hi : InputOk init n F inp C [(name, .list (some c))]) (hc : (c, Entry.list (some fn)) ∈ C)
    (hn : 0 < n) {dofs : List String} (hD : dofs.length = D) (hno : name ∉ dofs) {order : List Nat}
    (ho : IsSchedule order n) : parabolic init order n D dofs inp = Res.ub := by
  subst hD
  unfold parabolic withFields
  rw [hi.computed, hi.initial, constructed, bind_assoc]
  obtain ⟨cfs, e, hcf⟩ := construct_ok hi.fields
  rw [e, Res.ok_bind, Res.pure_eq, Res.ok_bind]
  obtain ⟨v, hf, hv, -⟩ := find_ok hcf hi.nodupC hc
  have hb : getStrided order v (List.replicate (n * dofs.length) (0 : K)) (-1) dofs.length
      = Res.ub := by
    unfold getStrided
    rw [if_neg (by rw [hv, List.length_replicate]; exact fun h => h rfl)]
    refine parFor_ub (fun u : List K => u.length = n * dofs.length) (j := 0) ?_
      List.length_replicate ?_ (ho.mem_iff.2 (List.mem_range.2 hn))
    · intro u hu
      rw [rd_at0 (by omega), Res.ok_bind]
      rfl
    · intro p hp u hu
      have hp : p < n := List.mem_range.1 (ho.mem_iff.1 hp)
      rw [rd_at0 (by omega), Res.ok_bind]
      dsimp only
      by_cases hneg : (dofs.length : Int) * (p : Int) + -1 < 0
      · exact Or.inl (if_pos hneg)
      · rw [if_neg hneg]
        by_cases hlt : ((dofs.length : Int) * (p : Int) + -1).toNat < u.length
        · exact Or.inr (by rw [wr_eq hlt, Res.sat_ok]; simpa using hu)
        · exact Or.inl (wr_ub (by omega))
  change parEntries order cfs dofs _ _ = _
  rw [parEntries, lastIndex_notMem dofs 0 (-1) hno, getNamed, hf]
  dsimp only
  rw [hb]
  rfl

/-! ## Names of the residuals for fewer than three dimensions -/

theorem getNamed_size {n D : Nat} {order : List Nat} {F : String → Nat → K} {C : Params}
    {cfs : List (String × List K)} {c fn : String} {off : Int}
    (hcf : List.Forall₂ (fun e cf => e.1 = cf.1 ∧ ∃ fn, e.2 = Entry.list (some fn) ∧
      Holds n cf.2 (F fn)) C cfs) (hC : (C.map Prod.fst).Nodup)
    (hm : (c, Entry.list (some fn)) ∈ C) {E : Nat} (hn : 0 < n) (hne : E ≠ D) :
    getNamed order cfs c off E (List.replicate (n * D) (0 : K))
      = throwErr "Size mismatch in field initialization:  Mod(view, stride) != 0" := by
  obtain ⟨v, hf, hv, -⟩ := find_ok hcf hC hm
  rw [getNamed, hf]
  dsimp only
  rw [getStrided, if_pos]
  rw [hv, List.length_replicate]
  exact fun h => hne (Nat.eq_of_mul_eq_mul_left hn h)

/-- On a planar mesh every initial displacement or velocity of the hyperbolic problem and every
initial displacement or temperature of the thermomechanical problem is refused, although the name
and the field are known: the residuals give the names for three dimensions. -/
theorem C104_planar_false {init : String → Res (List K)} {n : Nat} {F : String → Nat → K}
    {inp : Input} {C : Params} {name c : String}
    (hi : InputOk init n F inp C [(name, .list (some c))]) (hn : 0 < n) {order : List Nat} :
    (StateOk C (elasticDofs ++ elasticDots) [(name, .list (some c))] →
      hyperbolic init order n 2 elasticDofs elasticDots inp
        = throwErr "Size mismatch in field initialization:  Mod(view, stride) != 0") ∧
    (StateOk C thermomechDofs [(name, .list (some c))] →
      parabolic init order n 3 thermomechDofs inp
        = throwErr "Size mismatch in field initialization:  Mod(view, stride) != 0") := by
  obtain ⟨cfs, e, hcf⟩ := construct_ok hi.fields
  constructor
  · intro hs
    obtain ⟨hk, c', hc', fn, hm⟩ := hs name (some c) (by simp)
    cases hc'
    unfold hyperbolic withFields
    rw [hi.computed, hi.initial, constructed, bind_assoc, e, Res.ok_bind, Res.pure_eq, Res.ok_bind]
    change hypEntries order cfs _ _ _ _ = _
    rw [hypEntries]
    by_cases h1 : firstIndex name elasticDofs 0 ≠ -1
    · rw [if_pos h1, getNamed_size hcf hi.nodupC hm hn (by decide)]
      rfl
    · have h2 : firstIndex name elasticDots 0 ≠ -1 := by
        rcases List.mem_append.1 hk with h | h
        · obtain ⟨j, hj, rfl⟩ := List.getElem_of_mem h
          rw [firstIndex_get elasticDofs 0 (by decide) j hj] at h1
          omega
        · obtain ⟨j, hj, rfl⟩ := List.getElem_of_mem h
          rw [firstIndex_get elasticDots 0 (by decide) j hj]
          omega
      rw [if_neg h1, if_pos h2, getNamed_size hcf hi.nodupC hm hn (by decide)]
      rfl
  · intro hs
    obtain ⟨-, c', hc', fn, hm⟩ := hs name (some c) (by simp)
    cases hc'
    unfold parabolic withFields
    rw [hi.computed, hi.initial, constructed, bind_assoc, e, Res.ok_bind, Res.pure_eq, Res.ok_bind]
    change parEntries order cfs _ _ _ = _
    rw [parEntries, getNamed_size hcf hi.nodupC hm hn (by decide)]
    rfl

/-- A value given for a degree of freedom in place of a list is passed over without a message: the
state stays zero. -/
theorem C104_ignored_false {init : String → Res (List K)} {n : Nat} {inp : Input} {C : Params}
    (hC : inp.computed = some C) {cfs : List (String × List K)} (hc : construct init C = Res.ok cfs)
    (hI : inp.initial = some [("Temperature", .other)]) (order : List Nat) :
    parabolic init order n 1 heatDofs inp = Res.ok (List.replicate (n * 1) 0) := by
  unfold parabolic withFields
  rw [hC, hI, constructed, hc]
  rfl

/-! ## The residuals -/

/-- **C104** for the residuals: initial temperatures of the heat equation on every mesh. -/
theorem C104_heat_partial {init : String → Res (List K)} {n : Nat} {F : String → Nat → K}
    {inp : Input} {C I : Params} (hi : InputOk init n F inp C I) (hs : StateOk C heatDofs I)
    {order : List Nat} (ho : IsSchedule order n) :
    (parabolic init order n 1 heatDofs inp).Sat (Initial C I F n 1 heatDofs) :=
  C104_parabolic_partial hi (by decide) rfl hs ho

/-- **C104** for the residuals: the solid problems on meshes of three dimensions. -/
theorem C104_solid_partial {init : String → Res (List K)} {n : Nat} {F : String → Nat → K}
    {inp : Input} {C I : Params} (hi : InputOk init n F inp C I) {order : List Nat}
    (ho : IsSchedule order n) :
    (StateOk C thermomechDofs I →
      (parabolic init order n 4 thermomechDofs inp).Sat (Initial C I F n 4 thermomechDofs)) ∧
    (StateOk C (elasticDofs ++ elasticDots) I →
      (hyperbolic init order n 3 elasticDofs elasticDots inp).Sat fun s =>
        Initial C I F n 3 elasticDofs s.1 ∧ Initial C I F n 3 elasticDots s.2) :=
  ⟨fun hs => C104_parabolic_partial hi (by decide) rfl hs ho,
   fun hs => C104_hyperbolic_partial hi (dofs := elasticDofs) (dots := elasticDots) (by decide)
    (by decide) (by decide) rfl rfl hs ho⟩

/-! ## A concrete input -/

/-- Reader of the example: two texts are known. -/
def readEx (fn : String) (n : Nat) (vars : List (List Int)) : Res (List Int) :=
  if fn = "x+y" then
    Res.ok ((List.range n).map fun p => at0 (vars.getD 0 []) p + at0 (vars.getD 1 []) p)
  else throwErr "no such text"

theorem readEx_reads : Reads readEx 2 "x+y" fun v => v 0 + v 1 := by
  intro n vars hl ha
  refine ⟨_, if_pos rfl, by simp, fun p hp => ?_⟩
  simp [at0, hp]

/-- Coordinates of three nodes. -/
def coordsEx : List Int := [0, 0, 1, 0, 0, 5]

/-- Input with one field and one initial state. -/
def inputEx : Input :=
  ⟨some [("ramp", .list (some "x+y"))], some [("Temperature", .list (some "ramp"))]⟩

theorem inputEx_ok : InputOk (fieldInit readEx [0, 1, 2] [2, 1, 0] 2 3 coordsEx) 3
    (fun _ p => point 2 coordsEx p 0 + point 2 coordsEx p 1) inputEx
    [("ramp", .list (some "x+y"))] [("Temperature", .list (some "ramp"))] where
  computed := rfl
  initial := rfl
  nodupC := by decide
  nodupI := by decide
  fields := by
    intro e he
    rw [List.mem_singleton] at he
    subst he
    exact ⟨"x+y", rfl, C104_values readEx_reads (by decide) rfl (by unfold IsSchedule; decide)
      (by unfold IsSchedule; decide)⟩

example : (parabolic (fieldInit readEx [0, 1, 2] [2, 1, 0] 2 3 coordsEx) [1, 0, 2] 3 1 heatDofs
    inputEx).Sat (Initial [("ramp", .list (some "x+y"))] [("Temperature", .list (some "ramp"))]
      (fun _ p => point 2 coordsEx p 0 + point 2 coordsEx p 1) 3 1 heatDofs) :=
  C104_heat_partial inputEx_ok (by
    intro name t h
    rw [List.mem_singleton] at h
    cases h
    exact ⟨by decide, "ramp", rfl, "x+y", by decide⟩) (by unfold IsSchedule; decide)

example : parabolic (fieldInit readEx [0, 1, 2] [2, 1, 0] 2 3 coordsEx) [1, 0, 2] 3 1 heatDofs
    inputEx = Res.ok [0, 1, 5] := by decide

/-- The input of the example is one that the thermomechanical problem refuses on its planar mesh. -/
example : parabolic (fieldInit readEx [0, 1, 2] [2, 1, 0] 2 3 coordsEx) [1, 0, 2] 3 3 thermomechDofs
    inputEx = throwErr "Size mismatch in field initialization:  Mod(view, stride) != 0" :=
  (C104_planar_false inputEx_ok (by decide)).2 (by
    intro name t h
    rw [List.mem_singleton] at h
    cases h
    exact ⟨by decide, "ramp", rfl, "x+y", by decide⟩)

end Plato.Field
