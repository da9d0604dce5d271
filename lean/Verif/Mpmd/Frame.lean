import Verif.Mpmd.Model

/-!
# Values of criteria through histories (C92)
-/

namespace Plato.Mpmd
open Plato

section
variable {σ α β : Type}

@[simp] theorem bind_ok {m : Act σ α} {f : α → Act σ β} {s s' : σ} {b : β} :
    (m >>= f) s = .ok b s' ↔ ∃ a s1, m s = .ok a s1 ∧ f a s1 = .ok b s' := by
  show Act.bind m f s = _ ↔ _
  unfold Act.bind
  cases h : m s <;> simp

@[simp] theorem pure_ok {a b : α} {s s' : σ} : (pure a : Act σ α) s = .ok b s' ↔ a = b ∧ s = s' := by
  show Out.ok a s = _ ↔ _
  simp

@[simp] theorem get_ok {s s' a : σ} : (get : Act σ σ) s = .ok a s' ↔ s = a ∧ s = s' := by simp [get]

@[simp] theorem modify_ok {f : σ → σ} {s s' : σ} {u : Unit} : modify f s = .ok u s' ↔ f s = s' := by simp [modify]

@[simp] theorem lift_ok {r : Res α} {s s' : σ} {a : α} : (lift r : Act σ α) s = .ok a s' ↔ r = .ok a ∧ s = s' := by
  unfold lift
  cases r <;> simp

theorem pure_run (a : α) (s : σ) : (pure a : Act σ α) s = .ok a s := rfl
theorem get_run (s : σ) : (get : Act σ σ) s = .ok s s := rfl
theorem modify_run (f : σ → σ) (s : σ) : modify f s = .ok () (f s) := rfl
theorem lift_run_ok {r : Res α} {a : α} (h : r = .ok a) (s : σ) : (lift r : Act σ α) s = .ok a s := by rw [h]; rfl
theorem bind_run {m : Act σ α} {f : α → Act σ β} {s s1 : σ} {a : α} (h : m s = .ok a s1) :
    (m >>= f) s = f a s1 := by
  show Act.bind m f s = _
  unfold Act.bind
  rw [h]

/-- The states before and after are related, whether the call returns or throws. -/
def Keeps (R : σ → σ → Prop) (m : Act σ α) : Prop :=
  ∀ s, match m s with
    | .ok _ t => R s t
    | .err _ t => R s t
    | .ub => True

variable {R : σ → σ → Prop}

theorem Keeps.ok {m : Act σ α} (h : Keeps R m) {s t : σ} {a : α} (e : m s = .ok a t) : R s t := by
  have := h s; rw [e] at this; exact this

theorem Keeps.err {m : Act σ α} (h : Keeps R m) {s t : σ} {x : String} (e : m s = .err x t) : R s t := by
  have := h s; rw [e] at this; exact this

theorem Keeps.bind (tr : ∀ a b c, R a b → R b c → R a c) {m : Act σ α} {f : α → Act σ β} (h : Keeps R m)
    (hf : ∀ a, Keeps R (f a)) : Keeps R (m >>= f) := by
  intro s
  show match Act.bind m f s with | .ok _ t => R s t | .err _ t => R s t | .ub => True
  unfold Act.bind
  cases e : m s with
  | ok a t =>
    dsimp only
    have h1 := h.ok e
    have h2 := hf a t
    cases e2 : f a t with
    | ok b u => rw [e2] at h2; exact tr _ _ _ h1 h2
    | err x u => rw [e2] at h2; exact tr _ _ _ h1 h2
    | ub => trivial
  | err x t => exact h.err e
  | ub => trivial

/-- The same with the state that the rest starts from. -/
theorem Keeps.get_bind (_tr : ∀ a b c, R a b → R b c → R a c) {f : σ → Act σ β}
    (hf : ∀ s, match f s s with | .ok _ t => R s t | .err _ t => R s t | .ub => True) : Keeps R (get >>= f) := by
  intro s
  exact hf s

theorem Keeps.pure (rf : ∀ a, R a a) (a : α) : Keeps R (pure a : Act σ α) := fun s => rf s
theorem Keeps.get (rf : ∀ a, R a a) : Keeps R (get : Act σ σ) := fun s => rf s
theorem Keeps.modify {f : σ → σ} (h : ∀ s, R s (f s)) : Keeps R (modify f) := fun s => h s
theorem Keeps.lift (rf : ∀ a, R a a) (r : Res α) : Keeps R (lift r : Act σ α) := by
  intro s
  unfold Mpmd.lift
  cases r <;> first | exact rf s | trivial

end

/-! ## What operations do to the values of a criterion -/

variable {S : Sim}

/-- Criterion and target of an operation that computes a value. -/
def Kind.valueOf : Kind → Option (Str × ℝ)
  | .criterion c t => some (c, t)
  | .criterionX c t => some (c, t)
  | .value c t => some (c, t)
  | _ => none

/-- What does not change in an operation: its class, its problem definition and the targets of its parameters. -/
def Op.fixed (op : Op) : Kind × Str × (Str → Option Str) := (op.kind, op.defn, fun n => (op.parms n).map Parm.target)

/-- The value of a parameter is assigned. -/
theorem fixed_value (name : Str) (v : ℝ) (op : Op) :
    Op.fixed { op with parms := alter op.parms name fun q => { q with value := v } } = op.fixed := by
  unfold Op.fixed
  dsimp only
  congr 2
  funext n
  unfold alter
  split_ifs
  · cases op.parms n <;> rfl
  · rfl

/-- The values of the criteria in a set are the same, the names of values, the operations and the mesh map are. -/
structure Same (c : Str → Prop) (a b : App S) : Prop where
  value : ∀ x, c x → b.values x = a.values x
  name : b.valueName = a.valueName
  kind : ∀ o, (b.ops o).map Op.fixed = (a.ops o).map Op.fixed
  map : b.meshMap = a.meshMap

theorem Same.refl (c : Str → Prop) (a : App S) : Same c a a := ⟨fun _ _ => rfl, rfl, fun _ => rfl, rfl⟩

theorem Same.trans {c : Str → Prop} (a b d : App S) (h : Same c a b) (k : Same c b d) : Same c a d :=
  ⟨fun x hx => (k.value x hx).trans (h.value x hx), k.name.trans h.name, fun o => (k.kind o).trans (h.kind o),
    k.map.trans h.map⟩

/-- An operation whose members other than its kind are assigned. -/
theorem kinds_alter {f : Str → Option Op} {o : Str} {g : Op → Op} (hk : ∀ op, (g op).fixed = op.fixed) (x : Str) :
    (alter f o g x).map Op.fixed = (f x).map Op.fixed := by
  unfold alter
  split_ifs with hx
  · cases f x <;> simp [hk]
  · rfl

/-- Closes goals of the form `Keeps (Same c) m`. -/
macro "keeps" : tactic => `(tactic|
  repeat' first
    | exact Keeps.lift (Same.refl _) _
    | exact Keeps.pure (Same.refl _) _
    | exact Keeps.get (Same.refl _)
    | exact Keeps.modify fun a => ⟨fun _ _ => rfl, rfl, fun _ => rfl, rfl⟩
    | (refine Keeps.bind Same.trans ?_ fun x => ?_)
    | (rcases x with ⟨_, _⟩; dsimp only)
    | split)

variable (c : Str → Prop)

theorem keeps_deref : Keeps (Same c) (deref : Act (App S) S.Prob) := by unfold deref; keeps

theorem keeps_solve : Keeps (Same c) (solve : Act (App S) Unit) := by
  unfold solve
  refine Keeps.bind Same.trans (keeps_deref c) fun p => ?_
  keeps

theorem keeps_createProblem (n : Str) (p : Params) (clear : App S → App S) (h : ∀ a, Same c a (clear a)) :
    Keeps (Same c) (createProblem n p clear) := by
  have hb : ∀ m d, Keeps (Same c) (build m d p : Act (App S) Unit) := fun m d => by unfold build; keeps
  unfold createProblem
  refine Keeps.bind Same.trans (Keeps.modify fun a => ⟨fun _ _ => rfl, rfl, fun _ => rfl, rfl⟩) fun _ => ?_
  refine Keeps.bind Same.trans (Keeps.get (Same.refl _)) fun a => ?_
  refine Keeps.bind Same.trans (Keeps.lift (Same.refl _) _) fun m => ?_
  refine Keeps.bind Same.trans (Keeps.modify fun a => ⟨fun _ _ => rfl, rfl, fun _ => rfl, rfl⟩) fun _ => ?_
  refine Keeps.bind Same.trans (Keeps.lift (Same.refl _) _) fun d => ?_
  refine Keeps.bind Same.trans (Keeps.modify fun a => ⟨fun _ _ => rfl, rfl, fun _ => rfl, rfl⟩) fun _ => ?_
  exact Keeps.bind Same.trans (hb m d) fun _ => Keeps.modify h

theorem keeps_createFrom (n : Str) : Keeps (Same c) (createFrom n : Act (App S) Unit) := by
  unfold createFrom
  refine Keeps.bind Same.trans (Keeps.get (Same.refl _)) fun a => ?_
  split
  · exact keeps_createProblem c _ _ _ fun a => ⟨fun _ _ => rfl, rfl, fun _ => rfl, rfl⟩
  · exact Keeps.lift (Same.refl _) _

theorem keeps_reset : Keeps (Same c) (resetProblemMetaData : Act (App S) Unit) := by
  unfold resetProblemMetaData
  refine Keeps.bind Same.trans (keeps_deref c) fun p => ?_
  refine Keeps.bind Same.trans (Keeps.modify fun a => ⟨fun _ _ => rfl, rfl, fun _ => rfl, rfl⟩) fun _ => ?_
  refine Keeps.modify fun a => ?_
  split_ifs
  · exact ⟨fun _ _ => rfl, rfl, fun _ => rfl, rfl⟩
  · exact Same.refl _ _

theorem keeps_solveFor (c' : Str) : Keeps (Same c) (solveFor c' : Act (App S) Unit) := by
  unfold solveFor
  refine Keeps.bind Same.trans (keeps_deref c) fun p => ?_
  split_ifs
  · exact keeps_solve c
  · exact Keeps.pure (Same.refl _) _

theorem keeps_value {c' : Str} (h : ¬ c c') (t : ℝ) : Keeps (Same c) (criterionValue c' t : Act (App S) Unit) := by
  unfold criterionValue
  refine Keeps.bind Same.trans (keeps_solveFor c c') fun _ => ?_
  refine Keeps.bind Same.trans (keeps_deref c) fun p => ?_
  refine Keeps.bind Same.trans (Keeps.get (Same.refl _)) fun a => ?_
  refine Keeps.bind Same.trans (Keeps.lift (Same.refl _) _) fun x => ?_
  rcases x with ⟨v, p⟩
  exact Keeps.modify fun a => ⟨fun x hx => by
    have : x ≠ c' := fun e => h (e ▸ hx)
    simp [upd, this], rfl, fun _ => rfl, rfl⟩

theorem keeps_gradZ (c' : Str) : Keeps (Same c) (criterionGradZ c' : Act (App S) Unit) := by
  unfold criterionGradZ
  refine Keeps.bind Same.trans (keeps_deref c) fun p => ?_
  keeps

theorem keeps_gradX (c' : Str) : Keeps (Same c) (criterionGradX c' : Act (App S) Unit) := by
  unfold criterionGradX
  refine Keeps.bind Same.trans (keeps_deref c) fun p => ?_
  keeps

theorem keeps_hostMirror (n : Str) : Keeps (Same c) (hostMirror n : Act (App S) (List ℝ)) := by
  unfold hostMirror
  keeps

theorem keeps_hdf5 (ns : List Str) : Keeps (Same c) (hdf5Loop ns : Act (App S) Unit) := by
  induction ns with
  | nil => exact Keeps.pure (Same.refl _) _
  | cons n ns ih =>
    unfold hdf5Loop
    refine Keeps.bind Same.trans (keeps_hostMirror c n) fun d => ?_
    exact Keeps.bind Same.trans (Keeps.modify fun a => ⟨fun _ _ => rfl, rfl, fun _ => rfl, rfl⟩) fun _ => ih

theorem keeps_hasChanged (o : Str) (op : Op) (b : Bool) (x : List ℝ) :
    Keeps (Same c) (hasChanged o op b x : Act (App S) Bool) := by
  unfold hasChanged
  have h : Keeps (Same c) (modify (fun a => { a with ops := alter a.ops o fun op => { op with last := x } }) :
      Act (App S) Unit) := Keeps.modify fun a => ⟨fun _ _ => rfl, rfl, kinds_alter (g := fun op => { op with last := x }) fun _ => rfl, rfl⟩
  split_ifs
  · exact Keeps.bind Same.trans h fun _ => Keeps.pure (Same.refl _) _
  · exact Keeps.pure (Same.refl _) _
  · exact Keeps.bind Same.trans h fun _ => Keeps.pure (Same.refl _) _
  · exact Keeps.pure (Same.refl _) _

theorem keeps_runOp (o : Str) (op : Op) (h : ∀ x t, op.kind.valueOf = some (x, t) → ¬ c x) :
    Keeps (Same c) (runOp o op : Act (App S) Unit) := by
  unfold runOp
  cases hk : op.kind with
  | solution => exact keeps_solve c
  | reinitialize b =>
    dsimp only
    refine Keeps.bind Same.trans (Keeps.get (Same.refl _)) fun a => ?_
    refine Keeps.bind Same.trans (Keeps.modify fun a => ⟨fun _ _ => rfl, rfl, fun _ => rfl, rfl⟩) fun _ => ?_
    refine Keeps.bind Same.trans (keeps_hasChanged c _ _ _ _) fun ch => ?_
    split_ifs
    · refine Keeps.bind Same.trans (Keeps.get (Same.refl _)) fun a => ?_
      exact Keeps.bind Same.trans (keeps_createFrom c _) fun _ => keeps_reset c
    · exact Keeps.pure (Same.refl _) _
  | update =>
    dsimp only
    refine Keeps.bind Same.trans (keeps_deref c) fun p => ?_
    keeps
  | criterion c' t =>
    have hc : ¬ c c' := h c' t (by rw [hk]; rfl)
    exact Keeps.bind Same.trans (keeps_value c hc t) fun _ => keeps_gradZ c c'
  | criterionX c' t =>
    have hc : ¬ c c' := h c' t (by rw [hk]; rfl)
    exact Keeps.bind Same.trans (keeps_value c hc t) fun _ => keeps_gradX c c'
  | value c' t =>
    have hc : ¬ c c' := h c' t (by rw [hk]; rfl)
    exact keeps_value c hc t
  | gradient c' => exact keeps_gradZ c c'
  | gradientX c' => exact keeps_gradX c c'
  | mapX c' ins => dsimp only; keeps
  | difference d =>
    dsimp only
    unfold difference
    keeps
  | reloadMesh =>
    dsimp only
    refine Keeps.bind Same.trans (Keeps.get (Same.refl _)) fun a => ?_
    exact Keeps.bind Same.trans (keeps_createProblem c _ _ _ fun a => Same.refl _ _) fun _ => keeps_reset c
  | hdf5 ns =>
    exact Keeps.bind Same.trans (Keeps.modify fun a => ⟨fun _ _ => rfl, rfl, fun _ => rfl, rfl⟩) fun _ => keeps_hdf5 c ns
  | output => exact Keeps.pure (Same.refl _) _

/-- Commands other than operations that compute a value of the criterion, for the operations of `a`. -/
def Other (c : Str → Prop) (a : App S) (cmd : Cmd S) : Prop :=
  ∀ o op, cmd = .compute o → a.ops o = some op → ∀ x t, op.kind.valueOf = some (x, t) → ¬ c x

theorem keeps_prepare (x n : Str) (d : Defn) : Keeps (Same c) (prepare x n d : Act (App S) Unit) := by
  unfold prepare
  split_ifs
  · exact Keeps.bind Same.trans (keeps_createFrom c _) fun _ => keeps_reset c
  · exact keeps_createFrom c _
  · exact Keeps.pure (Same.refl _) _

/-- The members after a command that returns or throws. -/
def After (P : App S → Prop) {α : Type} : Out (App S) α → Prop
  | .ok _ b => P b
  | .err _ b => P b
  | .ub => True

theorem Keeps.after {α : Type} {R : App S → App S → Prop} {m : Act (App S) α} (h : Keeps R m) (a : App S) :
    After (R a) (m a) := by
  have := h a
  cases e : m a <;> rw [e] at this <;> exact this

theorem keeps_compute (o : Str) (a : App S) (h : ∀ op, a.ops o = some op → ∀ x t, op.kind.valueOf = some (x, t) → ¬ c x) :
    After (Same c a) ((compute o : Act (App S) Unit) a) := by
  unfold compute
  rw [bind_run (get_run a)]
  cases ho : a.ops o with
  | none => exact (Keeps.lift (Same.refl c) _).after a
  | some op =>
    dsimp only
    cases hd : a.defs op.defn with
    | none => exact (Keeps.lift (Same.refl c) _).after a
    | some d =>
      dsimp only
      exact (Keeps.bind Same.trans (keeps_prepare c _ _ _) fun _ => keeps_runOp c o op (h op ho)).after a

theorem keeps_importField (n : Str) (d : List ℝ) : Keeps (Same c) (importField n d : Act (App S) Unit) := by
  unfold importField
  keeps

theorem keeps_importParameter (o n : Str) (d : List ℝ) :
    Keeps (Same c) (importParameter o n d : Act (App S) Unit) := by
  unfold importParameter
  keeps
  all_goals
    exact Keeps.modify fun a => ⟨fun _ _ => rfl, rfl, kinds_alter (fixed_value _ _), rfl⟩

theorem keeps_importValue (n : Str) (d : List ℝ) : Keeps (Same c) (importValue n d : Act (App S) Unit) := by
  unfold importValue
  keeps

theorem keeps_unmap (m : Option MapFns) (c' : Str) (g : List ℝ) :
    Keeps (Same c) (unmapGrad m c' g : Act (App S) (List ℝ)) := by
  unfold unmapGrad
  keeps

theorem keeps_export (n : Str) (l : Layout) (k : Nat) :
    Keeps (Same c) (exportData n l k : Act (App S) (Option (List ℝ))) := by
  unfold exportData
  refine Keeps.bind Same.trans (Keeps.lift (Same.refl _) _) fun x => ?_
  rcases x with ⟨f, i⟩
  cases l with
  | scalar =>
    dsimp only
    unfold exportValue
    keeps
  | field =>
    dsimp only
    unfold exportField
    keeps
    all_goals exact keeps_unmap c _ _ _

theorem keeps_cmd (a : App S) (cmd : Cmd S) (h : Other c a cmd) : After (Same c a) (cmd.run a) := by
  cases cmd with
  | importField n d => exact (keeps_importField c n d).after a
  | importParameter o n d => exact (keeps_importParameter c o n d).after a
  | importValue n d => exact (keeps_importValue c n d).after a
  | compute o => exact keeps_compute c o a fun op ho => h o op rfl ho
  | «export» n l k => exact (Keeps.bind Same.trans (keeps_export c n l k) fun _ => Keeps.pure (Same.refl _) _).after a
  | files f => exact ⟨fun _ _ => rfl, rfl, fun _ => rfl, rfl⟩

/-- Histories, with exceptions, in which no operation computes a value of the criterion. -/
theorem same_execAll {cs : List (Cmd S)} : ∀ {a b : App S}, (∀ cmd ∈ cs, Other c a cmd) → execAll cs a = some b →
    Same c a b := by
  induction cs with
  | nil =>
    intro a b _ h
    cases h
    exact Same.refl _ _
  | cons cmd cs ih =>
    intro a b h hr
    have h1 := keeps_cmd c a cmd (h cmd (by simp))
    have next : ∀ a', Same c a a' → execAll cs a' = some b → Same c a b := by
      intro a' hs hr
      refine hs.trans _ _ _ (ih (fun x hx o op he ho y t => ?_) hr)
      have hk := hs.kind o
      rw [ho] at hk
      cases hao : a.ops o with
      | none => rw [hao] at hk; simp at hk
      | some op' =>
        rw [hao] at hk
        simp only [Option.map_some, Option.some.injEq, Op.fixed, Prod.mk.injEq] at hk
        rw [hk.1]
        exact h x (by simp [hx]) o op' he hao y t
    unfold execAll at hr
    cases hc : cmd.run a with
    | ok u a' => rw [hc] at hr h1; exact next a' h1 hr
    | err e a' => rw [hc] at hr h1; exact next a' h1 hr
    | ub => rw [hc] at hr; cases hr

variable {c : Str}

/-- What `criterionValue` leaves. -/
theorem criterionValue_ok {t : ℝ} {a b : App S} (h : criterionValue c t a = .ok () b) :
    ∃ p v p', S.value p b.control b.sol c = .ok (v, p') ∧ b.values c = some (v - t) ∧ b.prob = some p' := by
  unfold criterionValue at h
  simp only [bind_ok, get_ok, lift_ok] at h
  obtain ⟨_, s1, _, p, s2, _, a', s3, ⟨rfl, rfl⟩, ⟨v, p'⟩, s4, ⟨hv, rfl⟩, hm⟩ := h
  simp only [modify_ok] at hm
  subst hm
  exact ⟨p, v, p', hv, by simp [upd], rfl⟩

/-- Control, solution, values and names are the same. -/
def Stay (a b : App S) : Prop :=
  b.control = a.control ∧ b.sol = a.sol ∧ b.values = a.values ∧ b.valueName = a.valueName

theorem deref_ok {a b : App S} {p : S.Prob} : (deref : Act (App S) S.Prob) a = .ok p b ↔ a.prob = some p ∧ a = b := by
  unfold deref
  rw [bind_run (get_run a)]
  cases a.prob <;> simp

theorem stay_gradZ {a b : App S} (h : criterionGradZ c a = .ok () b) : Stay a b ∧
    ∃ p g p', a.prob = some p ∧ S.gradZ p b.control b.sol c = .ok (g, p') ∧ b.prob = some p' ∧ b.gradsZ c = some g := by
  unfold criterionGradZ at h
  simp only [bind_ok, get_ok, lift_ok, deref_ok] at h
  obtain ⟨p, s1, ⟨hp, rfl⟩, a2, s3, ⟨rfl, rfl⟩, ⟨g, p'⟩, s4, ⟨hg, rfl⟩, hm⟩ := h
  simp only [modify_ok] at hm
  subst hm
  exact ⟨⟨rfl, rfl, rfl, rfl⟩, p, g, p', hp, hg, rfl, by simp [upd]⟩

theorem stay_gradX {a b : App S} (h : criterionGradX c a = .ok () b) : Stay a b ∧
    ∃ p g p', a.prob = some p ∧ S.gradX p b.control b.sol c = .ok (g, p') ∧ b.prob = some p' ∧ b.gradsX c = some g := by
  unfold criterionGradX at h
  simp only [bind_ok, get_ok, lift_ok, deref_ok] at h
  obtain ⟨p, s1, ⟨hp, rfl⟩, a2, s3, ⟨rfl, rfl⟩, ⟨g, p'⟩, s4, ⟨hg, rfl⟩, hm⟩ := h
  simp only [modify_ok] at hm
  subst hm
  exact ⟨⟨rfl, rfl, rfl, rfl⟩, p, g, p', hp, hg, rfl, by simp [upd]⟩

/-- The problem `p` is what the application holds, or held before it computed a gradient of the criterion. -/
def Behind (b : App S) (c : Str) (p : S.Prob) : Prop :=
  b.prob = some p ∨ (∃ g q, S.gradZ p b.control b.sol c = .ok (g, q) ∧ b.prob = some q) ∨
    ∃ g q, S.gradX p b.control b.sol c = .ok (g, q) ∧ b.prob = some q

/-- A call of an operation returns: the problem is prepared, then the operation runs. -/
theorem compute_ok {o : Str} {op : Op} {a b : App S} (ho : a.ops o = some op) (h : compute o a = .ok () b) :
    ∃ d a1, a.defs op.defn = some d ∧ prepare a.current op.defn d a = .ok () a1 ∧ runOp o op a1 = .ok () b := by
  unfold compute at h
  rw [bind_run (get_run a), ho] at h
  dsimp only at h
  cases hd : a.defs op.defn with
  | none => rw [hd] at h; simp at h
  | some d =>
    rw [hd] at h
    simp only [bind_ok] at h
    obtain ⟨_, a1, h1, h2⟩ := h
    exact ⟨d, a1, rfl, h1, h2⟩

/-- The value that an operation leaves: what the problem returns for the topology and the solution, less the target. -/
theorem value_of_compute {o : Str} {op : Op} {t : ℝ} {a b : App S} (ho : a.ops o = some op)
    (hk : op.kind.valueOf = some (c, t)) (h : compute o a = .ok () b) :
    ∃ p v p', S.value p b.control b.sol c = .ok (v, p') ∧ b.values c = some (v - t) ∧ Behind b c p' := by
  obtain ⟨d, a1, _, _, h2⟩ := compute_ok ho h
  unfold runOp at h2
  cases hkk : op.kind <;> rw [hkk] at h2 hk <;> simp only [Kind.valueOf, Option.some.injEq, Prod.mk.injEq, reduceCtorEq] at hk
  · obtain ⟨rfl, rfl⟩ := hk
    simp only [bind_ok] at h2
    obtain ⟨_, a2, h3, h4⟩ := h2
    obtain ⟨p, v, p', e1, e2, e3⟩ := criterionValue_ok h3
    obtain ⟨⟨s1, s2, s3, s4⟩, q, g, q', t1, t2, t3, _⟩ := stay_gradZ h4
    rw [e3] at t1
    cases t1
    exact ⟨p, v, p', by rw [s1, s2]; exact e1, by rw [s3]; exact e2, Or.inr (Or.inl ⟨g, q', t2, t3⟩)⟩
  · obtain ⟨rfl, rfl⟩ := hk
    simp only [bind_ok] at h2
    obtain ⟨_, a2, h3, h4⟩ := h2
    obtain ⟨p, v, p', e1, e2, e3⟩ := criterionValue_ok h3
    obtain ⟨⟨s1, s2, s3, s4⟩, q, g, q', t1, t2, t3, _⟩ := stay_gradX h4
    rw [e3] at t1
    cases t1
    exact ⟨p, v, p', by rw [s1, s2]; exact e1, by rw [s3]; exact e2, Or.inr (Or.inr ⟨g, q', t2, t3⟩)⟩
  · obtain ⟨rfl, rfl⟩ := hk
    obtain ⟨p, v, p', e1, e2, e3⟩ := criterionValue_ok h2
    exact ⟨p, v, p', e1, e2, Or.inl e3⟩

end Plato.Mpmd
