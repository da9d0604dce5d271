import Verif.Mpmd.Target

/-!
# Files that other programs write, and `Reinitialize` (C96)

Another program writes the files from the design parameters.  Each round of the optimizer imports the parameters, has
the files written, and calls `Reinitialize`.
-/

namespace Plato.Mpmd
open Plato

variable {S : Sim} (Φ : Physics S)

theorem exec_append (xs ys : List (Cmd S)) : exec (xs ++ ys) = (exec xs >>= fun _ => exec ys) := by
  induction xs with
  | nil => rfl
  | cons x xs ih =>
    funext a
    simp only [List.cons_append, exec, ih]
    change Act.bind _ _ a = Act.bind (Act.bind _ _) _ a
    unfold Act.bind
    cases x.run a <;> rfl

/-- What the creation of the problem of a definition leaves as it is. -/
theorem createFrom_frame {n : Str} {a b : App S} (hdim : ∀ P d, S.dims P = .ok d → d = 3 ∨ d = 2 ∨ d = 1)
    (h : createFrom n a = .ok () b) : b.vals = a.vals ∧ b.ops = a.ops ∧ b.files = a.files ∧ b.current = n ∧
      ∃ P, b.defs n = some ⟨P, false⟩ ∧ (a.defs n).map Defn.params = some P ∧ Holds Φ b a.files P := by
  unfold createFrom at h
  rw [bind_run (get_run a)] at h
  cases hD : a.defs n with
  | none => rw [hD] at h; simp at h
  | some D =>
    rw [hD] at h
    obtain ⟨m, d, p, hr, hp, rfl⟩ := createProblem_ok (hdim D.params) h
    exact ⟨rfl, rfl, rfl, rfl, D.params, by simp [clearDef, alter, hD], rfl, p, m, d, rfl, hr, Φ.make_inv _ _ _ _ hp⟩

theorem reset_frame {a b : App S} (h : resetProblemMetaData a = .ok () b) :
    b.vals = a.vals ∧ b.ops = a.ops ∧ b.files = a.files ∧ b.current = a.current ∧ b.defs = a.defs ∧ b.prob = a.prob := by
  unfold resetProblemMetaData at h
  simp only [bind_ok, modify_ok, deref_ok] at h
  obtain ⟨p, _, ⟨hp, rfl⟩, _, _, rfl, rfl⟩ := h
  split_ifs <;> exact ⟨rfl, rfl, rfl, rfl, rfl, rfl⟩

/-- The problem of the definition is kept, or created from the present files. -/
theorem prepare_frame {n : Str} {D : Defn} {a b : App S} (hdim : ∀ P d, S.dims P = .ok d → d = 3 ∨ d = 2 ∨ d = 1)
    (hD : a.defs n = some D) (h : prepare a.current n D a = .ok () b) :
    b.vals = a.vals ∧ b.ops = a.ops ∧ b.files = a.files ∧ b.current = n ∧ b.defs n = some ⟨D.params, false⟩ ∧
      (b = a ∧ D.modified = false ∨ Holds Φ b a.files D.params) := by
  unfold prepare at h
  split_ifs at h with h1 h2
  · simp only [bind_ok] at h
    obtain ⟨_, a1, h3, h4⟩ := h
    obtain ⟨e1, e2, e3, e4, P, e5, e6, e7⟩ := createFrom_frame Φ hdim h3
    obtain ⟨r1, r2, r3, r4, r5, r6⟩ := reset_frame h4
    rw [hD] at e6
    cases e6
    exact ⟨r1.trans e1, r2.trans e2, r3.trans e3, r4.trans e4, by rw [r5]; exact e5, Or.inr (e7.of_prob Φ r6)⟩
  · obtain ⟨e1, e2, e3, e4, P, e5, e6, e7⟩ := createFrom_frame Φ hdim h
    rw [hD] at e6
    cases e6
    exact ⟨e1, e2, e3, e4, e5, Or.inr e7⟩
  · simp only [pure_ok] at h
    obtain ⟨_, rfl⟩ := h
    have hm : D.modified = false := by simpa using h2
    refine ⟨rfl, rfl, rfl, (not_not.mp h1).symm, ?_, Or.inl ⟨rfl, hm⟩⟩
    rw [hD, ← hm]

/-- The problem belongs to the files `g`, unless the definition is marked. -/
def Belongs (g : S.Files) (a : App S) : Prop :=
  ∀ D, a.defs a.current = some D → D.modified = false → Holds Φ a g D.params

/-- One call of `Reinitialize`, when the files `F v` belong to the parameters `v`. -/
theorem reinit_run {F : List ℝ → S.Files} {g : S.Files} {o : Str} {op : Op} {oc : Bool} {v : List ℝ} {a b : App S}
    (hdim : ∀ P d, S.dims P = .ok d → d = 3 ∨ d = 2 ∨ d = 1) (hb : Belongs Φ g a) (hf : a.files = F v)
    (ho : a.ops o = some op) (hk : op.kind = .reinitialize oc) (hv : a.vals sParameters = some v)
    (hl : oc = true → op.last = [] ∨ g = F op.last) (h : compute o a = .ok () b) :
    b.files = F v ∧ b.current = op.defn ∧ (∃ P, b.defs op.defn = some ⟨P, false⟩ ∧
      (a.defs op.defn).map Defn.params = some P ∧ Holds Φ b (F v) P) ∧
      ∃ op', b.ops o = some op' ∧ op'.kind = op.kind ∧ op'.defn = op.defn ∧ (oc = true → op'.last = v) := by
  obtain ⟨D, a1, hD, h1, h2⟩ := compute_ok ho h
  obtain ⟨e1, e2, e3, e4, e5, e6⟩ := prepare_frame Φ hdim hD h1
  unfold runOp at h2
  rw [hk] at h2
  simp only [bind_ok, get_ok, modify_ok] at h2
  obtain ⟨_, _, ⟨rfl, rfl⟩, _, _, rfl, ch, a3, h3, h4⟩ := h2
  rw [e1, hv, Option.getD_some] at h3
  -- after the operation, if the problem is created again
  have again : ∀ (a3 : App S), ((do let a ← get; createFrom a.current; resetProblemMetaData) : Act (App S) Unit) a3 =
      .ok () b → a3.files = F v → a3.current = op.defn → a3.defs op.defn = some ⟨D.params, false⟩ →
      b.files = F v ∧ b.current = op.defn ∧ (∃ P, b.defs op.defn = some ⟨P, false⟩ ∧
        (a.defs op.defn).map Defn.params = some P ∧ Holds Φ b (F v) P) ∧ b.ops = a3.ops := by
    intro a3 q q1 q2 q3
    simp only [bind_ok, get_ok] at q
    obtain ⟨_, _, ⟨rfl, rfl⟩, _, a4, q4, q5⟩ := q
    obtain ⟨r1, r2, r3, r4, P, r5, r6, r7⟩ := createFrom_frame Φ hdim q4
    obtain ⟨s1, s2, s3, s4, s5, s6⟩ := reset_frame q5
    rw [q2] at r4 r5 r6
    rw [q3] at r6
    cases r6
    refine ⟨(s3.trans r3).trans q1, s4.trans r4, ⟨D.params, by rw [s5]; exact r5, by rw [hD]; rfl, ?_⟩, s2.trans r2⟩
    rw [q1] at r7
    exact r7.of_prob Φ s6
  unfold hasChanged at h3
  cases oc with
  | false =>
    simp only [Bool.false_eq_true, if_false, pure_ok] at h3
    obtain ⟨rfl, rfl⟩ := h3
    obtain ⟨r1, r2, r3, r4⟩ := again _ h4 (e3.trans hf) e4 e5
    exact ⟨r1, r2, r3, op, by rw [r4]; exact (congrFun e2 o).trans ho, rfl, rfl, by simp⟩
  | true =>
    simp only [if_true] at h3
    by_cases c1 : op.last.length = 0
    · rw [if_pos c1] at h3
      simp only [bind_ok, modify_ok, pure_ok] at h3
      obtain ⟨_, _, rfl, rfl, rfl⟩ := h3
      obtain ⟨r1, r2, r3, r4⟩ := again _ h4 (e3.trans hf) e4 e5
      refine ⟨r1, r2, r3, { op with last := v }, ?_, rfl, rfl, fun _ => rfl⟩
      rw [r4]
      simp [alter, e2, ho]
    · rw [if_neg c1] at h3
      by_cases c2 : op.last = v
      · rw [if_pos c2] at h3
        simp only [pure_ok] at h3
        obtain ⟨rfl, rfl⟩ := h3
        simp only [Bool.false_eq_true, if_false, pure_ok] at h4
        obtain ⟨_, rfl⟩ := h4
        refine ⟨e3.trans hf, e4, ⟨D.params, e5, by rw [hD]; rfl, ?_⟩, op, (congrFun e2 o).trans ho, rfl, rfl, fun _ => c2⟩
        have hh : Holds Φ a1 (F v) D.params := by
          rcases e6 with ⟨rfl, hm⟩ | hh
          · have hx := hb D (by rw [e4]; exact hD) hm
            rcases hl rfl with hl | hl
            · rw [hl] at c1; simp at c1
            · rw [hl, c2] at hx; exact hx
          · rw [hf] at hh; exact hh
        exact hh.of_prob Φ rfl
      · rw [if_neg c2] at h3
        simp only [bind_ok, modify_ok, pure_ok] at h3
        obtain ⟨_, _, rfl, rfl, rfl⟩ := h3
        obtain ⟨r1, r2, r3, r4⟩ := again _ h4 (e3.trans hf) e4 e5
        refine ⟨r1, r2, r3, { op with last := v }, ?_, rfl, rfl, fun _ => rfl⟩
        rw [r4]
        simp [alter, e2, ho]

/-- The other operations do not touch what `Reinitialize` stored. -/
def lastOf (o : Str) (a : App S) : Option (List ℝ) := (a.ops o).map Op.last

/-- The same stored state of an operation. -/
def LastSame (o : Str) (a b : App S) : Prop := lastOf o b = lastOf o a

theorem LastSame.refl (o : Str) (a : App S) : LastSame o a a := rfl

theorem LastSame.trans (o : Str) (a b c : App S) (h : LastSame o a b) (k : LastSame o b c) : LastSame o a c :=
  Eq.trans k h

theorem lastOf_alter {o x : Str} {a : App S} {g : Op → Op} (h : o = x → ∀ op, (g op).last = op.last) :
    (alter a.ops x g o).map Op.last = (a.ops o).map Op.last := by
  unfold alter
  split_ifs with e
  · cases a.ops o with
    | none => rfl
    | some op => simp [h e op]
  · rfl

/-- Closes goals of the form `Keeps (LastSame o) m`. -/
macro "lasts" : tactic => `(tactic|
  repeat' first
    | exact Keeps.lift (LastSame.refl _) _
    | exact Keeps.pure (LastSame.refl _) _
    | exact Keeps.get (LastSame.refl _)
    | exact Keeps.modify fun a => rfl
    | (refine Keeps.modify fun a => ?_; split_ifs <;> rfl)
    | (refine Keeps.bind (LastSame.trans _) ?_ fun x => ?_)
    | (rcases x with ⟨_, _⟩; dsimp only)
    | split)

theorem last_deref (o : Str) : Keeps (LastSame (S := S) o) (deref : Act (App S) S.Prob) := by
  unfold deref; lasts

theorem last_hostMirror (o n : Str) : Keeps (LastSame (S := S) o)
    (hostMirror n : Act (App S) (List ℝ)) := by
  unfold hostMirror; lasts

theorem last_hdf5 (o : Str) : ∀ ns, Keeps (LastSame (S := S) o) (hdf5Loop ns : Act (App S) Unit)
  | [] => Keeps.pure (LastSame.refl _) _
  | n :: ns => by
    unfold hdf5Loop
    exact Keeps.bind (LastSame.trans _) (last_hostMirror o n) fun x =>
      Keeps.bind (LastSame.trans _) (Keeps.modify fun a => rfl) fun _ => last_hdf5 o ns

theorem last_create (o n : Str) (P : Params) (cl : App S → App S) (hcl : ∀ a, (cl a).ops = a.ops) :
    Keeps (LastSame (S := S) o) (createProblem n P cl) := by
  have : Keeps (LastSame (S := S) o) (modify cl) :=
    Keeps.modify fun a => by unfold LastSame lastOf; rw [hcl]
  unfold createProblem build
  repeat' first
    | exact this
    | exact Keeps.lift (LastSame.refl _) _
    | exact Keeps.pure (LastSame.refl _) _
    | exact Keeps.get (LastSame.refl _)
    | exact Keeps.modify fun a => rfl
    | (refine Keeps.bind (LastSame.trans _) ?_ fun x => ?_)
    | split

theorem last_createFrom (o n : Str) : Keeps (LastSame (S := S) o) (createFrom n) := by
  unfold createFrom
  refine Keeps.bind (LastSame.trans _) (Keeps.get (LastSame.refl _)) fun a => ?_
  split
  · exact last_create o n _ _ fun _ => rfl
  · exact Keeps.lift (LastSame.refl _) _

theorem last_reset (o : Str) : Keeps (LastSame (S := S) o) (resetProblemMetaData : Act (App S) Unit) := by
  unfold resetProblemMetaData
  refine Keeps.bind (LastSame.trans _) (last_deref o) fun p => ?_
  lasts

theorem last_hasChanged {o x : Str} (hx : o ≠ x) (op : Op) (oc : Bool) (i : List ℝ) :
    Keeps (LastSame (S := S) o) (hasChanged x op oc i) := by
  have hm : Keeps (LastSame (S := S) o)
      (modify fun a => { a with ops := alter a.ops x fun op => { op with last := i } }) :=
    Keeps.modify fun a => lastOf_alter fun e => absurd e hx
  unfold hasChanged
  repeat' first
    | exact hm
    | exact Keeps.pure (LastSame.refl _) _
    | (refine Keeps.bind (LastSame.trans _) ?_ fun x => ?_)
    | split

theorem last_solve (o : Str) : Keeps (LastSame (S := S) o) (solve : Act (App S) Unit) := by
  unfold solve
  refine Keeps.bind (LastSame.trans _) (last_deref o) fun p => ?_
  lasts

theorem last_value (o c : Str) (t : ℝ) : Keeps (LastSame (S := S) o)
    (criterionValue c t : Act (App S) Unit) := by
  unfold criterionValue solveFor
  refine Keeps.bind (LastSame.trans _)
    (Keeps.bind (LastSame.trans _) (last_deref o) fun p => ?_) fun _ =>
    Keeps.bind (LastSame.trans _) (last_deref o) fun p => ?_
  · split
    · exact last_solve o
    · exact Keeps.pure (LastSame.refl _) _
  · lasts

theorem last_gradZ (o c : Str) : Keeps (LastSame (S := S) o)
    (criterionGradZ c : Act (App S) Unit) := by
  unfold criterionGradZ
  refine Keeps.bind (LastSame.trans _) (last_deref o) fun p => ?_
  lasts

theorem last_gradX (o c : Str) : Keeps (LastSame (S := S) o)
    (criterionGradX c : Act (App S) Unit) := by
  unfold criterionGradX
  refine Keeps.bind (LastSame.trans _) (last_deref o) fun p => ?_
  lasts

theorem last_runOp {o x : Str} (hx : o ≠ x) (op : Op) : Keeps (LastSame (S := S) o) (runOp x op) := by
  have tr := LastSame.trans (S := S) o
  unfold runOp
  cases op.kind with
  | solution => exact last_solve o
  | reinitialize oc =>
    refine Keeps.bind tr (Keeps.get (LastSame.refl _)) fun a => Keeps.bind tr (Keeps.modify fun _ => rfl) fun _ =>
      Keeps.bind tr (last_hasChanged hx op oc _) fun ch => ?_
    cases ch with
    | false =>
      rw [if_neg (by simp)]
      exact Keeps.pure (LastSame.refl _) _
    | true =>
      rw [if_pos rfl]
      exact Keeps.bind tr (Keeps.get (LastSame.refl _)) fun a => Keeps.bind tr (last_createFrom o _) fun _ => last_reset o
  | update =>
    refine Keeps.bind tr (last_deref o) fun p => ?_
    lasts
  | criterion c t => exact Keeps.bind tr (last_value o c t) fun _ => last_gradZ o c
  | criterionX c t => exact Keeps.bind tr (last_value o c t) fun _ => last_gradX o c
  | value c t => exact last_value o c t
  | gradient c => exact last_gradZ o c
  | gradientX c => exact last_gradX o c
  | mapX c ins => lasts
  | difference δ => dsimp only; unfold difference; lasts
  | reloadMesh =>
    exact Keeps.bind tr (Keeps.get (LastSame.refl _)) fun a => Keeps.bind tr (last_create o _ _ _ fun _ => rfl) fun _ =>
      last_reset o
  | hdf5 ns => exact Keeps.bind tr (Keeps.modify fun _ => rfl) fun _ => last_hdf5 o ns
  | output => exact Keeps.pure (LastSame.refl _) _

theorem last_cmd {o : Str} {c : Cmd S} (hc : c ≠ .compute o) : Keeps (LastSame (S := S) o) c.run := by
  have tr := LastSame.trans (S := S) o
  cases c with
  | importField n x => unfold Cmd.run importField; lasts
  | importValue n x => unfold Cmd.run importValue; lasts
  | files f => exact Keeps.modify fun _ => rfl
  | importParameter x n v =>
    have hm : ∀ v, Keeps (LastSame (S := S) o)
        (modify fun a => { a with ops := alter a.ops x fun op => { op with parms := alter op.parms n fun q => { q with value := v } } }) :=
      fun v => Keeps.modify fun a => lastOf_alter fun _ _ => rfl
    unfold Cmd.run importParameter
    repeat' first
      | exact hm _
      | exact Keeps.lift (LastSame.refl _) _
      | exact Keeps.pure (LastSame.refl _) _
      | exact Keeps.get (LastSame.refl _)
      | exact Keeps.modify fun a => rfl
      | (refine Keeps.bind (LastSame.trans _) ?_ fun x => ?_)
      | split
  | «export» n l k =>
    unfold Cmd.run exportData exportField exportValue unmapGrad
    lasts
  | compute x =>
    have hx : o ≠ x := fun e => hc (by rw [e])
    change Keeps _ (compute x)
    unfold compute prepare
    refine Keeps.bind tr (Keeps.get (LastSame.refl _)) fun a => ?_
    split
    · exact Keeps.lift (LastSame.refl _) _
    · split
      · exact Keeps.lift (LastSame.refl _) _
      · refine Keeps.bind tr ?_ fun _ => last_runOp hx _
        split
        · exact Keeps.bind tr (last_createFrom o _) fun _ => last_reset o
        · split
          · exact last_createFrom o _
          · exact Keeps.pure (LastSame.refl _) _

theorem last_exec {o : Str} : ∀ {cs : List (Cmd S)} {a b : App S}, (∀ c ∈ cs, c ≠ .compute o) → exec cs a = .ok () b →
    lastOf o b = lastOf o a
  | [], a, b, _, h => by
    simp only [exec, pure_ok] at h
    rw [h.2]
  | c :: cs, a, b, hc, h => by
    simp only [exec, bind_ok] at h
    obtain ⟨_, a1, h1, h2⟩ := h
    exact Eq.trans (last_exec (fun x hx => hc x (by simp [hx])) h2) ((last_cmd (hc c (by simp))).ok h1)

end Plato.Mpmd
