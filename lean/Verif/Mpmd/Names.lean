import Verif.Mpmd.Sizes

/-!
# Names that the application does not know (C100)
-/

namespace Plato.Mpmd
open Plato

variable {S : Sim}

/-- A command that names an operation, a parameter of an operation or a value that does not exist. -/
def Unknown (a : App S) : Cmd S → Prop
  | .compute o => a.ops o = none
  | .importParameter o n d => d ≠ [] ∧ ∀ op, a.ops o = some op → op.parms n = none
  | .importValue n _ => a.vals n = none
  | .export n .scalar _ => '@' ∉ n ∧ n ≠ [] ∧ a.valueName n = none ∧ a.vals n = none
  | _ => False

/-- **C100.**  A command with an operation, a parameter or a value that does not exist throws and changes nothing, in
every state. -/
theorem C100_unknown_partial {a : App S} {c : Cmd S} (h : Unknown a c) : ∃ e, c.run a = .err e a := by
  cases c with
  | compute o =>
    change a.ops o = none at h
    change ∃ e, compute o a = .err e a
    unfold compute
    rw [bind_run (get_run a), h]
    exact ⟨_, rfl⟩
  | importParameter o n d =>
    obtain ⟨hd, h⟩ := h
    change ∃ e, importParameter o n d a = .err e a
    unfold importParameter
    rw [bind_run (get_run a)]
    cases ho : a.ops o with
    | none => exact ⟨_, rfl⟩
    | some op =>
      dsimp only
      cases d with
      | nil => exact absurd rfl hd
      | cons v vs =>
        rw [bind_run (lift_run_ok (show rd (v :: vs) 0 = .ok v from rfl) _), h op ho]
        exact ⟨_, rfl⟩
  | importValue n d =>
    change a.vals n = none at h
    change ∃ e, importValue n d a = .err e a
    unfold importValue
    rw [bind_run (get_run a), h]
    exact ⟨_, rfl⟩
  | importField n d => exact h.elim
  | files f => exact h.elim
  | «export» n l k =>
    cases l with
    | field => exact h.elim
    | scalar =>
      obtain ⟨h1, h2, h3, h4⟩ := h
      change ∃ e, (exportData n .scalar k >>= fun _ => pure ()) a = .err e a
      have : ∃ e, exportData n .scalar k a = .err e a := by
        unfold exportData
        rw [bind_run (lift_run_ok (fieldName_plain h1 h2) a)]
        dsimp only
        have : ∃ e, exportValue n k a = .err e a := by
          unfold exportValue
          rw [bind_run (get_run a), h3]
          dsimp only
          rw [h4]
          exact ⟨_, rfl⟩
        obtain ⟨e, he⟩ := this
        refine ⟨e, ?_⟩
        change Act.bind _ _ a = _
        unfold Act.bind
        rw [he]
      obtain ⟨e, he⟩ := this
      refine ⟨e, ?_⟩
      change Act.bind _ _ a = _
      unfold Act.bind
      rw [he]

/-- **C100.**  In an input that is accepted, operations with the same name for their values compute the same
criterion. -/
theorem C100_unique {nodes : List Node} {a0 a : App S} (h : initApp nodes a0 = .ok () a) {x y : Node} (hx : x ∈ nodes)
    (hy : y ∈ nodes) {k l : Kind} {c d n : Str} {s t : ℝ} (hk : x.kind = some k) (hl : y.kind = some l)
    (hc : k.valueOf = some (c, s)) (hd : l.valueOf = some (d, t)) (h0 : n ≠ [])
    (h1 : getArgumentName sValue x.outputs = .ok n) (h2 : getArgumentName sValue y.outputs = .ok n) : c = d := by
  obtain ⟨a1, _, _, h3⟩ := initApp_ok h
  have h4 := (readOps_ok h3).2.1
  exact Option.some.inj ((h4 x hx k c s n hk hc h1 h0).symm.trans (h4 y hy l d t n hl hd h2 h0))

/-- **C100, what is false.**  Fields: every name other than "Topology" and "Solution" is accepted by an import, which
does nothing, in every state. -/
theorem C100_import_false {a : App S} {n : Str} (h1 : n ≠ sTopology) (h2 : n ≠ sSolution) (d : List ℝ) :
    importField n d a = .ok () a := by
  unfold importField
  rw [bind_run (get_run a), if_neg h1, if_neg h2]
  rfl

/-- **C100, what is false.**  Fields: an export of a name that is not known returns and leaves the shared field as it is,
for every length, in every state. -/
theorem C100_export_false {a : App S} {n : Str} (h0 : n ≠ []) (ha : '@' ∉ n) (hr : ¬ Reserved n)
    (hz : a.gradZName n = none) (hx : a.gradXName n = none) (k : Nat) : exportData n .field k a = .ok none a := by
  unfold Reserved at hr
  simp only [not_or] at hr
  unfold exportData
  rw [bind_run (lift_run_ok (fieldName_plain ha h0) a)]
  dsimp only
  unfold exportField
  rw [bind_run (get_run a), if_neg hr.1, hz]
  dsimp only
  simp only [hr, if_false, hx]
  rfl

/-- **C100, what is false.**  An operation with a function that is not known is skipped. -/
theorem C100_function_false : ∃ a b : App toy, initApp [⟨['p'], none, ['d'], [], []⟩] (toyApp 2) = .ok () a ∧
    compute ['p'] a = .err "Request for operation that doesn't exist." b :=
  ⟨_, _, rfl, rfl⟩

/-- **C100, what is false.**  Of two operations with one name the second replaces the first. -/
theorem C100_operation_false : ∃ a : App toy, ∃ op,
    initApp [kNode ['p'] ['d'] .solution, kNode ['p'] ['d'] .update] (toyApp 2) = .ok () a ∧
    a.ops ['p'] = some op ∧ op.kind = .update :=
  ⟨_, _, rfl, rfl, rfl⟩

/-- **C100, what is false.**  One name for the gradient by the topology of one criterion and the gradient by the
coordinates of another is accepted; the export gives the first after the second was computed. -/
theorem C100_gradient_false : ∃ a b d : App toy, initApp [⟨['p'], some (.gradient ['c']), ['d'], [(sGradient, ['g'])], []⟩,
      ⟨['q'], some (.gradientX ['e']), ['d'], [(sGradient, ['g'])], []⟩] (toyApp 1) = .ok () a ∧
    exec [.importField sSolution [3], .compute ['q']] a = .ok () b ∧ b.gradsX ['e'] = some [3] ∧
    exportData ['g'] .field 1 b = .ok (some [0]) d :=
  ⟨_, _, _, rfl, rfl, rfl, rfl⟩

/-- A command of each sort that names nothing, after `initialize`. -/
example : ∃ a : App toy, initApp [kNode ['p'] ['d'] .solution] (toyApp 2) = .ok () a ∧ Unknown a (.compute ['x']) ∧
    Unknown a (.importParameter ['p'] ['x'] [1]) ∧ Unknown a (.importValue ['x'] [1]) ∧
    Unknown a (.export ['x'] .scalar 1) := by
  refine ⟨_, rfl, rfl, ⟨by simp, ?_⟩, rfl, by simp, by simp, rfl, rfl⟩
  intro op h
  cases h
  rfl

/-- The hypotheses of `C100_unique` are met. -/
example : ∃ a : App toy, initApp [valueNode ['p'] ['d'] ['n'] 1, valueNode ['q'] ['d'] ['n'] 2] (toyApp 2) = .ok () a ∧
    getArgumentName sValue (valueNode ['p'] ['d'] ['n'] 1).outputs = .ok ['n'] :=
  ⟨_, rfl, rfl⟩

end Plato.Mpmd
