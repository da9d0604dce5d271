import Verif.Mpmd.MapProps

/-!
# Problem definitions, parameters and solutions through histories (C94)
-/

namespace Plato.Mpmd
open Plato

/-- Problems that compute functions of mesh, dimension, parameters and topology.  `inv m d P p`: `p` is a problem for
these. -/
structure Physics (S : Sim) where
  inv : Mesh → Nat → Params → S.Prob → Prop
  U : Mesh → Nat → Params → List ℝ → Sol
  V : Mesh → Nat → Params → List ℝ → Sol → Str → ℝ
  G : Mesh → Nat → Params → List ℝ → Sol → Str → List ℝ
  GX : Mesh → Nat → Params → List ℝ → Sol → Str → List ℝ
  lin : Mesh → Nat → Params → Str → Bool
  make_inv : ∀ m d P p, S.make m d P = .ok p → inv m d P p
  solution_ok : ∀ m d P p z s p', inv m d P p → S.solution p z = .ok (s, p') → s = U m d P z ∧ inv m d P p'
  value_ok : ∀ m d P p z s c v p', inv m d P p → S.value p z s c = .ok (v, p') → v = V m d P z s c ∧ inv m d P p'
  gradZ_ok : ∀ m d P p z s c g p', inv m d P p → S.gradZ p z s c = .ok (g, p') → g = G m d P z s c ∧ inv m d P p'
  gradX_ok : ∀ m d P p z s c g p', inv m d P p → S.gradX p z s c = .ok (g, p') → g = GX m d P z s c ∧ inv m d P p'
  lin_ok : ∀ m d P p c, inv m d P p → S.isLinear p c = lin m d P c
  /-- a criterion that is linear does not use the solution -/
  V_lin : ∀ m d P z s s' c, lin m d P c = true → V m d P z s c = V m d P z s' c
  G_lin : ∀ m d P z s s' c, lin m d P c = true → G m d P z s c = G m d P z s' c
  GX_lin : ∀ m d P z s s' c, lin m d P c = true → GX m d P z s c = GX m d P z s' c

variable {S : Sim} (Φ : Physics S)

/-- The mesh and the dimension that belong to parameters. -/
structure Reads (f : S.Files) (P : Params) (m : Mesh) (d : Nat) : Prop where
  mesh : S.readMesh f P = .ok m
  dims : S.dims P = .ok d

/-- The application holds a problem for the parameters. -/
def Holds (a : App S) (f : S.Files) (P : Params) : Prop :=
  ∃ p m d, a.prob = some p ∧ Reads f P m d ∧ Φ.inv m d P p

/-- The problem is that of the present definition, unless the definition is marked as modified. -/
structure Fresh (f : S.Files) (a : App S) : Prop where
  files : a.files = f
  prob : ∀ D, a.defs a.current = some D → D.modified = false → Holds Φ a f D.params

/-- Members that decide about the problem are the same, and the topology and the solution. -/
structure Still (a b : App S) : Prop where
  files : b.files = a.files
  current : b.current = a.current
  defs : b.defs = a.defs
  prob : b.prob = a.prob
  control : b.control = a.control
  sol : b.sol = a.sol

theorem Still.refl (a : App S) : Still a a := ⟨rfl, rfl, rfl, rfl, rfl, rfl⟩

theorem Still.trans (a b c : App S) (h : Still a b) (k : Still b c) : Still a c :=
  ⟨k.files.trans h.files, k.current.trans h.current, k.defs.trans h.defs, k.prob.trans h.prob,
    k.control.trans h.control, k.sol.trans h.sol⟩

/-- Closes goals of the form `Keeps Still m`. -/
macro "still" : tactic => `(tactic|
  repeat' first
    | exact Keeps.lift Still.refl _
    | exact Keeps.pure Still.refl _
    | exact Keeps.get Still.refl
    | exact Keeps.modify fun a => ⟨rfl, rfl, rfl, rfl, rfl, rfl⟩
    | (refine Keeps.bind Still.trans ?_ fun x => ?_)
    | (rcases x with ⟨_, _⟩; dsimp only)
    | split)

theorem still_hostMirror (n : Str) : Keeps Still (hostMirror n : Act (App S) (List ℝ)) := by
  unfold hostMirror
  still

theorem still_hdf5 (ns : List Str) : Keeps Still (hdf5Loop ns : Act (App S) Unit) := by
  induction ns with
  | nil => exact Keeps.pure Still.refl _
  | cons n ns ih =>
    unfold hdf5Loop
    refine Keeps.bind Still.trans (still_hostMirror n) fun d => ?_
    exact Keeps.bind Still.trans (Keeps.modify fun a => ⟨rfl, rfl, rfl, rfl, rfl, rfl⟩) fun _ => ih

theorem still_export (n : Str) (l : Layout) (k : Nat) : Keeps Still (exportData n l k : Act (App S) (Option (List ℝ))) := by
  have hu : ∀ m c g, Keeps Still (unmapGrad m c g : Act (App S) (List ℝ)) := fun m c g => by unfold unmapGrad; still
  unfold exportData
  refine Keeps.bind Still.trans (Keeps.lift Still.refl _) fun x => ?_
  rcases x with ⟨f, i⟩
  cases l with
  | scalar =>
    dsimp only
    unfold exportValue
    still
  | field =>
    dsimp only
    unfold exportField
    still
    all_goals exact hu _ _ _

theorem still_importValue (n : Str) (d : List ℝ) : Keeps Still (importValue n d : Act (App S) Unit) := by
  unfold importValue
  still

theorem still_hasChanged (o : Str) (op : Op) (b : Bool) (x : List ℝ) :
    Keeps Still (hasChanged o op b x : Act (App S) Bool) := by
  unfold hasChanged
  still

/-! ## Creation of a problem -/

theorem build_ok {m : Mesh} {d : Nat} {P : Params} {a b : App S} (hd : d = 3 ∨ d = 2 ∨ d = 1)
    (h : build m d P a = .ok () b) : ∃ p, S.make m d P = .ok p ∧ b = { a with prob := some p } := by
  unfold build at h
  rw [if_pos hd] at h
  simp only [bind_ok, lift_ok, modify_ok] at h
  obtain ⟨_, _, rfl, p, _, ⟨hp, rfl⟩, rfl⟩ := h
  exact ⟨p, hp, rfl⟩

theorem createProblem_ok {n : Str} {P : Params} {clear : App S → App S} {a b : App S}
    (hdim : ∀ d, S.dims P = .ok d → d = 3 ∨ d = 2 ∨ d = 1) (h : createProblem n P clear a = .ok () b) :
    ∃ m d p, Reads a.files P m d ∧ S.make m d P = .ok p ∧
      b = clear { a with current := n, mesh := m, dims := d, prob := some p } := by
  unfold createProblem at h
  simp only [bind_ok, lift_ok, modify_ok, get_ok] at h
  obtain ⟨_, _, rfl, _, _, ⟨rfl, rfl⟩, m, _, ⟨hm, rfl⟩, _, _, rfl, d, _, ⟨hd, rfl⟩, _, _, rfl, _, s, hb, rfl⟩ := h
  obtain ⟨p, hp, rfl⟩ := build_ok (hdim d hd) hb
  exact ⟨m, d, p, ⟨hm, hd⟩, hp, rfl⟩

theorem createFrom_ok {n : Str} {a b : App S}
    (hdim : ∀ P d, S.dims P = .ok d → d = 3 ∨ d = 2 ∨ d = 1) (h : createFrom n a = .ok () b) :
    ∃ D, a.defs n = some D ∧ b.files = a.files ∧ b.current = n ∧ b.control = a.control ∧ b.sol = a.sol ∧
      b.defs = alter a.defs n (fun d => { d with modified := false }) ∧ Holds Φ b a.files D.params := by
  unfold createFrom at h
  rw [bind_run (get_run a)] at h
  cases hD : a.defs n with
  | none => rw [hD] at h; simp at h
  | some D =>
    rw [hD] at h
    obtain ⟨m, d, p, hr, hp, rfl⟩ := createProblem_ok (hdim D.params) h
    exact ⟨D, rfl, rfl, rfl, rfl, rfl, rfl, p, m, d, rfl, hr, Φ.make_inv _ _ _ _ hp⟩

theorem alter_self {β : Type} {f : Str → Option β} {k : Str} {g : β → β} {v : β} (h : f k = some v) :
    alter f k g k = some (g v) := by simp [alter, h]

theorem reset_ok {a b : App S} (h : resetProblemMetaData a = .ok () b) :
    b.files = a.files ∧ b.current = a.current ∧ b.defs = a.defs ∧ b.prob = a.prob := by
  unfold resetProblemMetaData at h
  simp only [bind_ok, modify_ok, deref_ok] at h
  obtain ⟨p, _, ⟨hp, rfl⟩, _, _, rfl, rfl⟩ := h
  split_ifs <;> exact ⟨rfl, rfl, rfl, rfl⟩

theorem Holds.of_prob {a b : App S} {f : S.Files} {P : Params} (h : Holds Φ a f P) (e : b.prob = a.prob) : Holds Φ b f P := by
  obtain ⟨p, m, d, hp, r⟩ := h
  exact ⟨p, m, d, e.trans hp, r⟩

/-- After `prepare` the problem is that of the definition, with its present parameters. -/
theorem prepare_ok {n : Str} {D : Defn} {f : S.Files} {a b : App S}
    (hdim : ∀ P d, S.dims P = .ok d → d = 3 ∨ d = 2 ∨ d = 1) (hf : Fresh Φ f a) (hD : a.defs n = some D)
    (h : prepare a.current n D a = .ok () b) :
    b.files = f ∧ b.current = n ∧ b.defs n = some ⟨D.params, false⟩ ∧
      (∀ n', (b.defs n').map Defn.params = (a.defs n').map Defn.params) ∧ Holds Φ b f D.params := by
  have par : ∀ n', (alter a.defs n (fun d => { d with modified := false }) n').map Defn.params =
      (a.defs n').map Defn.params := by
    intro n'
    unfold alter
    split_ifs
    · cases a.defs n' <;> rfl
    · rfl
  unfold prepare at h
  split_ifs at h with h1 h2
  · simp only [bind_ok] at h
    obtain ⟨_, a1, h3, h4⟩ := h
    obtain ⟨D', e0, e1, e2, _, _, e5, e6⟩ := createFrom_ok Φ hdim h3
    obtain ⟨r1, r2, r3, r4⟩ := reset_ok h4
    rw [hD] at e0
    cases e0
    rw [hf.files] at e1 e6
    refine ⟨r1.trans e1, r2.trans e2, by rw [r3, e5, alter_self hD], fun n' => by rw [r3, e5, par],
      e6.of_prob Φ r4⟩
  · obtain ⟨D', e0, e1, e2, _, _, e5, e6⟩ := createFrom_ok Φ hdim h
    rw [hD] at e0
    cases e0
    rw [hf.files] at e1 e6
    exact ⟨e1, e2, by rw [e5, alter_self hD], fun n' => by rw [e5, par], e6⟩
  · simp only [pure_ok] at h
    obtain ⟨_, rfl⟩ := h
    simp only [ne_eq, not_not] at h1
    have hm : D.modified = false := by simpa using h2
    refine ⟨hf.files, h1.symm, ?_, fun _ => rfl, hf.prob D (by rw [← h1]; exact hD) hm⟩
    rw [hD, ← hm]

/-! ## Operations -/

theorem Reads.unique {f : S.Files} {P : Params} {m m' : Mesh} {d d' : Nat} (h : Reads f P m d) (k : Reads f P m' d') :
    m' = m ∧ d' = d := by
  have h1 := h.mesh
  have h2 := h.dims
  rw [k.mesh] at h1
  rw [k.dims] at h2
  exact ⟨Res.ok.inj h1, Res.ok.inj h2⟩

variable {f : S.Files} {P : Params} {m : Mesh} {d : Nat} {p : S.Prob} {a b : App S}

theorem solve_spec (hp : a.prob = some p) (hi : Φ.inv m d P p)
    (h : solve a = .ok () b) : b.sol = Φ.U m d P a.control ∧ ∃ p', b.prob = some p' ∧ Φ.inv m d P p' ∧
      b = { a with sol := b.sol, prob := b.prob } := by
  unfold solve at h
  simp only [bind_ok, get_ok, lift_ok, deref_ok] at h
  obtain ⟨q, _, ⟨hq, rfl⟩, _, _, ⟨rfl, rfl⟩, ⟨s, q'⟩, _, ⟨hs, rfl⟩, hm⟩ := h
  simp only [modify_ok] at hm
  subst hm
  rw [hp] at hq
  cases hq
  obtain ⟨e1, e2⟩ := Φ.solution_ok _ _ _ _ _ _ _ hi hs
  exact ⟨e1, q', rfl, e2, rfl⟩

theorem solveFor_spec {c : Str} (hp : a.prob = some p) (hi : Φ.inv m d P p) (h : solveFor c a = .ok () b) :
    (Φ.lin m d P c = false → b.sol = Φ.U m d P a.control) ∧ (Φ.lin m d P c = true → b.sol = a.sol) ∧
      ∃ p', b.prob = some p' ∧ Φ.inv m d P p' ∧ b = { a with sol := b.sol, prob := b.prob } := by
  unfold solveFor at h
  simp only [bind_ok, deref_ok] at h
  obtain ⟨q, _, ⟨hq, rfl⟩, h⟩ := h
  rw [hp] at hq
  cases hq
  rw [Φ.lin_ok _ _ _ _ _ hi] at h
  split_ifs at h with hl
  · obtain ⟨e1, p', e2, e3, e4⟩ := solve_spec Φ hp hi h
    exact ⟨fun _ => e1, fun e => absurd (hl.symm.trans e) (by simp), p', e2, e3, e4⟩
  · simp only [pure_ok] at h
    obtain ⟨_, rfl⟩ := h
    exact ⟨fun e => absurd e hl, fun _ => rfl, p, hp, hi, rfl⟩

/-- Value of the criterion of the solution, whether the criterion needs the solution or not. -/
theorem criterionValue_spec {c : Str} {t : ℝ} (hp : a.prob = some p) (hi : Φ.inv m d P p)
    (h : criterionValue c t a = .ok () b) :
    b.values c = some (Φ.V m d P a.control (Φ.U m d P a.control) c - t) ∧
      (Φ.lin m d P c = false → b.sol = Φ.U m d P a.control) ∧ (Φ.lin m d P c = true → b.sol = a.sol) ∧
      ∃ p', b.prob = some p' ∧ Φ.inv m d P p' ∧ b = { a with sol := b.sol, prob := b.prob, values := b.values } := by
  unfold criterionValue at h
  simp only [bind_ok, get_ok, lift_ok, deref_ok] at h
  obtain ⟨_, s1, h1, q, _, ⟨hq, rfl⟩, _, _, ⟨rfl, rfl⟩, ⟨v, q'⟩, _, ⟨hv, rfl⟩, hm⟩ := h
  simp only [modify_ok] at hm
  subst hm
  obtain ⟨e1, e2, p', e3, e4, e5⟩ := solveFor_spec Φ hp hi h1
  rw [hq] at e3
  cases e3
  obtain ⟨f1, f2⟩ := Φ.value_ok _ _ _ _ _ _ _ _ _ e4 hv
  have hc : s1.control = a.control := by rw [e5]
  refine ⟨?_, e1, e2, q', rfl, f2, by rw [e5]⟩
  simp only [upd, if_true]
  rw [f1, hc]
  cases hl : Φ.lin m d P c with
  | false => rw [e1 hl]
  | true => rw [Φ.V_lin _ _ _ _ s1.sol _ _ hl]

theorem gradZ_spec {c : Str} (hp : a.prob = some p) (hi : Φ.inv m d P p) (h : criterionGradZ c a = .ok () b) :
    b.gradsZ c = some (Φ.G m d P a.control a.sol c) ∧
      ∃ p', b.prob = some p' ∧ Φ.inv m d P p' ∧ b = { a with prob := b.prob, gradsZ := b.gradsZ } := by
  unfold criterionGradZ at h
  simp only [bind_ok, get_ok, lift_ok, deref_ok] at h
  obtain ⟨q, _, ⟨hq, rfl⟩, _, _, ⟨rfl, rfl⟩, ⟨g, q'⟩, _, ⟨hg, rfl⟩, hm⟩ := h
  simp only [modify_ok] at hm
  subst hm
  rw [hp] at hq
  cases hq
  obtain ⟨f1, f2⟩ := Φ.gradZ_ok _ _ _ _ _ _ _ _ _ hi hg
  exact ⟨by simp [upd, f1], q', rfl, f2, rfl⟩

theorem gradX_spec {c : Str} (hp : a.prob = some p) (hi : Φ.inv m d P p) (h : criterionGradX c a = .ok () b) :
    b.gradsX c = some (Φ.GX m d P a.control a.sol c) ∧
      ∃ p', b.prob = some p' ∧ Φ.inv m d P p' ∧ b = { a with prob := b.prob, gradsX := b.gradsX } := by
  unfold criterionGradX at h
  simp only [bind_ok, get_ok, lift_ok, deref_ok] at h
  obtain ⟨q, _, ⟨hq, rfl⟩, _, _, ⟨rfl, rfl⟩, ⟨g, q'⟩, _, ⟨hg, rfl⟩, hm⟩ := h
  simp only [modify_ok] at hm
  subst hm
  rw [hp] at hq
  cases hq
  obtain ⟨f1, f2⟩ := Φ.gradX_ok _ _ _ _ _ _ _ _ _ hi hg
  exact ⟨by simp [upd, f1], q', rfl, f2, rfl⟩

/-- Operations that neither change the problem on their own (`UpdateProblem`) nor create it from the parameters of the
start (`ReloadMesh`). -/
def Kind.plain : Kind → Prop
  | .update => False
  | .reloadMesh => False
  | _ => True

/-- What an operation leaves when the problem is that of the present definition. -/
theorem runOp_fresh {o : Str} {op : Op} {D : Defn} (hdim : ∀ P d, S.dims P = .ok d → d = 3 ∨ d = 2 ∨ d = 1)
    (hk : op.kind.plain) (hf : a.files = f) (hD : a.defs a.current = some D) (hm : D.modified = false)
    (hh : Holds Φ a f D.params) (h : runOp o op a = .ok () b) :
    b.files = f ∧ b.current = a.current ∧ b.defs a.current = some D ∧
      (∀ n', (b.defs n').map Defn.params = (a.defs n').map Defn.params) ∧ Holds Φ b f D.params := by
  obtain ⟨p, m, d, hp, hr, hi⟩ := hh
  have keep : ∀ p' : S.Prob, b.prob = some p' → Φ.inv m d D.params p' → b.files = a.files → b.current = a.current →
      b.defs = a.defs → b.files = f ∧ b.current = a.current ∧ b.defs a.current = some D ∧
      (∀ n', (b.defs n').map Defn.params = (a.defs n').map Defn.params) ∧ Holds Φ b f D.params :=
    fun p' e1 e2 e3 e4 e5 => ⟨e3.trans hf, e4, by rw [e5]; exact hD, fun _ => by rw [e5], p', m, d, e1, hr, e2⟩
  have st : Still a b → b.files = f ∧ b.current = a.current ∧ b.defs a.current = some D ∧
      (∀ n', (b.defs n').map Defn.params = (a.defs n').map Defn.params) ∧ Holds Φ b f D.params :=
    fun s => keep p (s.prob.trans hp) hi s.files s.current s.defs
  unfold runOp at h
  cases hkk : op.kind with
  | update => rw [hkk] at hk; exact hk.elim
  | reloadMesh => rw [hkk] at hk; exact hk.elim
  | solution =>
    rw [hkk] at h
    obtain ⟨_, p', e1, e2, e3⟩ := solve_spec Φ hp hi h
    exact keep p' e1 e2 (by rw [e3]) (by rw [e3]) (by rw [e3])
  | value c t =>
    rw [hkk] at h
    obtain ⟨_, _, _, p', e1, e2, e3⟩ := criterionValue_spec Φ hp hi h
    exact keep p' e1 e2 (by rw [e3]) (by rw [e3]) (by rw [e3])
  | criterion c t =>
    rw [hkk] at h
    simp only [bind_ok] at h
    obtain ⟨_, a1, h1, h2⟩ := h
    obtain ⟨_, _, _, p', e1, e2, e3⟩ := criterionValue_spec Φ hp hi h1
    obtain ⟨_, p'', f1, f2, f3⟩ := gradZ_spec Φ e1 e2 h2
    exact keep p'' f1 f2 (by rw [f3, e3]) (by rw [f3, e3]) (by rw [f3, e3])
  | criterionX c t =>
    rw [hkk] at h
    simp only [bind_ok] at h
    obtain ⟨_, a1, h1, h2⟩ := h
    obtain ⟨_, _, _, p', e1, e2, e3⟩ := criterionValue_spec Φ hp hi h1
    obtain ⟨_, p'', f1, f2, f3⟩ := gradX_spec Φ e1 e2 h2
    exact keep p'' f1 f2 (by rw [f3, e3]) (by rw [f3, e3]) (by rw [f3, e3])
  | gradient c =>
    rw [hkk] at h
    obtain ⟨_, p'', f1, f2, f3⟩ := gradZ_spec Φ hp hi h
    exact keep p'' f1 f2 (by rw [f3]) (by rw [f3]) (by rw [f3])
  | gradientX c =>
    rw [hkk] at h
    obtain ⟨_, p'', f1, f2, f3⟩ := gradX_spec Φ hp hi h
    exact keep p'' f1 f2 (by rw [f3]) (by rw [f3]) (by rw [f3])
  | mapX c ins =>
    rw [hkk] at h
    refine st (Keeps.ok (m := do
      let a ← get
      let out ← lift (mapLoop ((a.gradsX c).getD []) a.vals ins 0 ((a.vals sSensitivity).getD []))
      modify fun a => { a with vals := upd a.vals sSensitivity out }) ?_ h)
    still
  | difference δ =>
    rw [hkk] at h
    refine st (Keeps.ok (m := difference op δ) ?_ h)
    unfold difference
    still
  | hdf5 ns =>
    rw [hkk] at h
    simp only [bind_ok, modify_ok] at h
    obtain ⟨_, a1, rfl, h⟩ := h
    have s1 := (still_hdf5 ns).ok h
    exact st ⟨s1.files, s1.current, s1.defs, s1.prob, s1.control, s1.sol⟩
  | output =>
    rw [hkk] at h
    exact st ((Keeps.pure Still.refl _).ok h)
  | reinitialize oc =>
    rw [hkk] at h
    simp only [bind_ok, get_ok, modify_ok] at h
    obtain ⟨_, _, ⟨rfl, rfl⟩, _, _, rfl, ch, a2, h1, h2⟩ := h
    have s1 := (still_hasChanged o op oc _).ok h1
    have s2 : Still a a2 := ⟨s1.files, s1.current, s1.defs, s1.prob, s1.control, s1.sol⟩
    split_ifs at h2 with hc
    · simp only [bind_ok, get_ok] at h2
      obtain ⟨_, _, ⟨rfl, rfl⟩, _, a3, h3, h4⟩ := h2
      obtain ⟨D', e0, e1, e2, _, _, e5, e6⟩ := createFrom_ok Φ hdim h3
      obtain ⟨r1, r2, r3, r4⟩ := reset_ok h4
      rw [s2.current, s2.defs, hD] at e0
      cases e0
      rw [s2.files, hf] at e1 e6
      rw [s2.defs, s2.current] at e5
      refine ⟨r1.trans e1, r2.trans (e2.trans s2.current), ?_, fun n' => ?_, e6.of_prob Φ r4⟩
      · rw [r3, e5, alter_self hD, ← hm]
      · rw [r3, e5]
        unfold alter
        split_ifs
        · cases a.defs n' <;> rfl
        · rfl
    · simp only [pure_ok] at h2
      obtain ⟨_, rfl⟩ := h2
      exact st s2

/-! ## Histories -/

/-- The parameters of the definition `n` after one command: an import of a parameter of an operation of this definition
sets its target. -/
def updateOne (ops : Str → Option Op) (n : Str) (c : Cmd S) (P : Params) : Res Params :=
  match c with
  | .importParameter o name data =>
    match ops o with
    | none => .ok P
    | some op =>
      if op.defn = n then
        match (op.parms name).map Parm.target with
        | none => .ok P
        | some t => if t = [] then .ok P else parseInline P t (data.headD 0)
      else .ok P
  | _ => .ok P

/-- The parameters of the definition `n` after a history. -/
def updated (ops : Str → Option Op) (n : Str) : List (Cmd S) → Params → Res Params
  | [], P => .ok P
  | c :: cs, P => do
    let P ← updateOne ops n c P
    updated ops n cs P

theorem updateOne_congr {ops ops' : Str → Option Op} (h : ∀ o, (ops o).map Op.fixed = (ops' o).map Op.fixed) (n : Str)
    (c : Cmd S) (P : Params) : updateOne ops n c P = updateOne ops' n c P := by
  cases c with
  | importParameter o name data =>
    have ho := h o
    unfold updateOne
    dsimp only
    cases h1 : ops o with
    | none =>
      cases h2 : ops' o with
      | none => rfl
      | some q => rw [h1, h2] at ho; simp at ho
    | some op =>
      cases h2 : ops' o with
      | none => rw [h1, h2] at ho; simp at ho
      | some q =>
        rw [h1, h2] at ho
        simp only [Option.map_some, Option.some.injEq, Op.fixed, Prod.mk.injEq] at ho
        have hq := congrFun ho.2.2 name
        dsimp only at hq ⊢
        rw [ho.2.1, hq]
  | importField n' d => rfl
  | importValue n' d => rfl
  | compute o => rfl
  | «export» n' l k => rfl
  | files f => rfl

theorem updated_congr {ops ops' : Str → Option Op} (h : ∀ o, (ops o).map Op.fixed = (ops' o).map Op.fixed) (n : Str)
    (cs : List (Cmd S)) : ∀ P, updated ops n cs P = updated ops' n cs P := by
  induction cs with
  | nil => intro P; rfl
  | cons c cs ih =>
    intro P
    unfold updated
    rw [updateOne_congr h]
    simp only [ih]

/-- Commands that are allowed: files do not change, and the operations are plain. -/
def Cmd.plain (ops : Str → Option Op) : Cmd S → Prop
  | .files _ => False
  | .compute o => ∀ op, ops o = some op → op.kind.plain
  | _ => True

theorem fresh_still (hf : Fresh Φ f a) (h1 : b.files = a.files) (h2 : b.current = a.current) (h3 : b.defs = a.defs)
    (h4 : b.prob = a.prob) : Fresh Φ f b :=
  ⟨h1.trans hf.files, fun D hD hm => (hf.prob D (by rw [← h2, ← h3]; exact hD) hm).of_prob Φ h4⟩

/-- Members that decide about the problem are the same after an import of a field. -/
theorem importField_ok {n : Str} {x : List ℝ} (h : importField n x a = .ok () b) :
    b.files = a.files ∧ b.current = a.current ∧ b.defs = a.defs ∧ b.prob = a.prob := by
  unfold importField at h
  rw [bind_run (get_run a)] at h
  split_ifs at h
  · cases hm : a.meshMap with
    | none =>
      rw [hm] at h
      simp only [bind_ok, lift_ok, modify_ok, pure_ok] at h
      obtain ⟨z, s1, ⟨hz, rfl⟩, _, s2, rfl, _, rfl⟩ := h
      exact ⟨rfl, rfl, rfl, rfl⟩
    | some q =>
      rw [hm] at h
      simp only [bind_ok, lift_ok, modify_ok] at h
      obtain ⟨z, s1, ⟨hz, rfl⟩, _, s2, rfl, y, s3, ⟨hy, rfl⟩, rfl⟩ := h
      exact ⟨rfl, rfl, rfl, rfl⟩
  · simp only [bind_ok, lift_ok, modify_ok] at h
    obtain ⟨u, _, ⟨_, rfl⟩, w, _, ⟨_, rfl⟩, s, _, ⟨_, rfl⟩, rfl⟩ := h
    exact ⟨rfl, rfl, rfl, rfl⟩
  · simp only [pure_ok] at h
    obtain ⟨_, rfl⟩ := h
    exact ⟨rfl, rfl, rfl, rfl⟩

theorem importParameter_ok {o name : Str} {x : List ℝ} (h : importParameter o name x a = .ok () b) :
    ∃ op q, a.ops o = some op ∧ op.parms name = some q ∧ b.files = a.files ∧ b.current = a.current ∧ b.prob = a.prob ∧
      (q.target = [] ∧ b.defs = a.defs ∨ ∃ D P, q.target ≠ [] ∧ a.defs op.defn = some D ∧
        parseInline D.params q.target (x.headD 0) = .ok P ∧ b.defs = upd a.defs op.defn ⟨P, true⟩) := by
  unfold importParameter at h
  rw [bind_run (get_run a)] at h
  cases ho : a.ops o with
  | none => rw [ho] at h; simp [throwErr] at h
  | some op =>
    rw [ho] at h
    dsimp only at h
    rw [bind_ok] at h
    obtain ⟨v, _, hv, h⟩ := h
    rw [lift_ok] at hv
    obtain ⟨hv, rfl⟩ := hv
    have hx : x.headD 0 = v := by
      cases x with
      | nil => simp [rd] at hv
      | cons y ys => simpa [rd] using hv
    cases hq : op.parms name with
    | none => rw [hq] at h; simp [throwErr] at h
    | some q =>
      rw [hq] at h
      dsimp only at h
      rw [bind_ok] at h
      obtain ⟨_, a1, h1, h⟩ := h
      rw [modify_ok] at h1
      subst h1
      refine ⟨op, q, rfl, hq, ?_⟩
      split_ifs at h with ht
      · simp only [pure_ok] at h
        obtain ⟨_, rfl⟩ := h
        exact ⟨rfl, rfl, rfl, Or.inl ⟨ht, rfl⟩⟩
      · cases hD : a.defs op.defn with
        | none => rw [hD] at h; simp at h
        | some D =>
          rw [hD] at h
          simp only [bind_ok, lift_ok, modify_ok] at h
          obtain ⟨P, _, ⟨hP, rfl⟩, rfl⟩ := h
          exact ⟨rfl, rfl, rfl, Or.inr ⟨D, P, ht, rfl, by rw [hx]; exact hP, rfl⟩⟩

/-- The parameters of all definitions follow one command. -/
def Follow (c : Cmd S) (a b : App S) : Prop :=
  ∀ n D, a.defs n = some D → ∃ D', b.defs n = some D' ∧ updateOne a.ops n c D.params = .ok D'.params

/-- The parameters of all definitions follow the imports. -/
def Follows (cs : List (Cmd S)) (a b : App S) : Prop :=
  ∀ n D, a.defs n = some D → ∃ D', b.defs n = some D' ∧ updated a.ops n cs D.params = .ok D'.params

theorem follows_same {cmd : Cmd S} (hc : ∀ o n x, cmd ≠ .importParameter o n x)
    (h : ∀ n, (b.defs n).map Defn.params = (a.defs n).map Defn.params) : Follow cmd a b := by
  intro n D hD
  have hn := h n
  rw [hD] at hn
  cases hb : b.defs n with
  | none => rw [hb] at hn; simp at hn
  | some D' =>
    rw [hb] at hn
    simp only [Option.map_some, Option.some.injEq] at hn
    refine ⟨D', rfl, ?_⟩
    cases cmd with
    | importParameter o n x => exact absurd rfl (hc o n x)
    | importField n' d => simp [updateOne, hn]
    | importValue n' d => simp [updateOne, hn]
    | compute o => simp [updateOne, hn]
    | «export» n' l k => simp [updateOne, hn]
    | files f => simp [updateOne, hn]

theorem compute_fresh {o : Str} (hdim : ∀ P d, S.dims P = .ok d → d = 3 ∨ d = 2 ∨ d = 1) (hf : Fresh Φ f a)
    (hp : ∀ op, a.ops o = some op → op.kind.plain) (h : compute o a = .ok () b) :
    Fresh Φ f b ∧ ∀ n, (b.defs n).map Defn.params = (a.defs n).map Defn.params := by
  cases ho : a.ops o with
  | none =>
    unfold compute at h
    rw [bind_run (get_run a), ho] at h
    simp [throwErr] at h
  | some op =>
    obtain ⟨D, a1, hD, h1, h2⟩ := compute_ok ho h
    obtain ⟨e1, e2, e3, e4, e5⟩ := prepare_ok Φ hdim hf hD h1
    obtain ⟨r1, r2, r3, r4, r5⟩ := runOp_fresh Φ (D := ⟨D.params, false⟩) hdim (hp op ho) e1 (by rw [e2]; exact e3) rfl e5 h2
    refine ⟨⟨r1, fun D' hD' _ => ?_⟩, fun n => (r4 n).trans (e4 n)⟩
    rw [r2, r3] at hD'
    cases hD'
    exact r5

theorem step_fresh {cmd : Cmd S} (hdim : ∀ P d, S.dims P = .ok d → d = 3 ∨ d = 2 ∨ d = 1) (hf : Fresh Φ f a)
    (hp : cmd.plain a.ops) (h : cmd.run a = .ok () b) : Fresh Φ f b ∧ Follow cmd a b := by
  cases cmd with
  | importField n d =>
    obtain ⟨e1, e2, e3, e4⟩ := importField_ok h
    exact ⟨fresh_still Φ hf e1 e2 e3 e4, follows_same (by simp) fun _ => by rw [e3]⟩
  | importValue n d =>
    have s := (still_importValue n d).ok h
    exact ⟨fresh_still Φ hf s.files s.current s.defs s.prob, follows_same (by simp) fun _ => by rw [s.defs]⟩
  | «export» n l k =>
    simp only [Cmd.run, bind_ok, pure_ok] at h
    obtain ⟨v, b', h, _, rfl⟩ := h
    have s := (still_export n l k).ok h
    exact ⟨fresh_still Φ hf s.files s.current s.defs s.prob, follows_same (by simp) fun _ => by rw [s.defs]⟩
  | files f => exact hp.elim
  | compute o =>
    obtain ⟨e1, e2⟩ := compute_fresh Φ hdim hf hp h
    exact ⟨e1, follows_same (by simp) e2⟩
  | importParameter o name x =>
    obtain ⟨op, q, ho, hq, e1, e2, e3, e4⟩ := importParameter_ok h
    rcases e4 with ⟨ht, hd⟩ | ⟨D, P, ht, hD, hP, hd⟩
    · refine ⟨fresh_still Φ hf e1 e2 hd e3, fun n D hD => ⟨D, by rw [hd]; exact hD, ?_⟩⟩
      simp [updateOne, ho, hq, ht]
    · refine ⟨⟨e1.trans hf.files, fun D' hD' hm => ?_⟩, fun n D' hD' => ?_⟩
      · rw [hd, e2] at hD'
        unfold upd at hD'
        split_ifs at hD'
        · cases hD'
          exact absurd hm (by simp)
        · exact (hf.prob D' hD' hm).of_prob Φ e3
      · rw [hd]
        unfold upd
        split_ifs with hn
        · subst hn
          rw [hD] at hD'
          cases hD'
          exact ⟨_, rfl, by rw [updateOne, ho]; dsimp only; rw [if_pos rfl, hq]; simpa only [Option.map_some, if_neg ht] using hP⟩
        · exact ⟨D', hD', by simp [updateOne, ho, Ne.symm hn]⟩

theorem plain_congr {ops ops' : Str → Option Op} (h : ∀ o, (ops o).map Op.fixed = (ops' o).map Op.fixed) {c : Cmd S}
    (hp : c.plain ops) : c.plain ops' := by
  cases c with
  | compute o =>
    intro op ho
    have he := h o
    rw [ho] at he
    cases h1 : ops o with
    | none => rw [h1] at he; simp at he
    | some q =>
      rw [h1] at he
      simp only [Option.map_some, Option.some.injEq, Op.fixed, Prod.mk.injEq] at he
      rw [← he.1]
      exact hp q h1
  | files f => exact hp
  | importParameter o name data => trivial
  | importField n' d => trivial
  | importValue n' d => trivial
  | «export» n' l k => trivial

theorem exec_fresh {cs : List (Cmd S)} (hdim : ∀ P d, S.dims P = .ok d → d = 3 ∨ d = 2 ∨ d = 1) :
    ∀ {a b : App S}, Fresh Φ f a → (∀ c ∈ cs, c.plain a.ops) → exec cs a = .ok () b → Fresh Φ f b ∧ Follows cs a b ∧
      ∀ o, (b.ops o).map Op.fixed = (a.ops o).map Op.fixed := by
  induction cs with
  | nil =>
    intro a b hf _ h
    simp only [exec, pure_ok] at h
    obtain ⟨_, rfl⟩ := h
    exact ⟨hf, fun n D hD => ⟨D, hD, rfl⟩, fun _ => rfl⟩
  | cons c cs ih =>
    intro a b hf hp h
    simp only [exec, bind_ok] at h
    obtain ⟨_, a1, h1, h2⟩ := h
    obtain ⟨f1, f2⟩ := step_fresh Φ hdim hf (hp c (by simp)) h1
    have hs : Same (fun _ => False) a a1 := by
      have := keeps_cmd (fun _ => False) a c (fun _ _ _ _ _ _ _ => id)
      rw [h1] at this
      exact this
    obtain ⟨g1, g2, g3⟩ := ih f1 (fun x hx => plain_congr (fun o => (hs.kind o).symm) (hp x (by simp [hx]))) h2
    refine ⟨g1, fun n D hD => ?_, fun o => (g3 o).trans (hs.kind o)⟩
    obtain ⟨D1, e1, e2⟩ := f2 n D hD
    obtain ⟨D2, e3, e4⟩ := g2 n D1 e1
    refine ⟨D2, e3, ?_⟩
    rw [updated, e2, ← e4]
    exact updated_congr (fun o => (hs.kind o).symm) n cs D1.params

/-- After `initialize` the problem that the constructor made is that of its definition: the constructor loads the
default problem from the same files. -/
theorem fresh_init {nodes : List Node} {a0 a : App S} (hf : a0.files = f) (hdefs : ∀ n, a0.defs n = none)
    (hctor : ∀ P, S.load f a0.current = .ok P → Holds Φ a0 f P) (h : initApp nodes a0 = .ok () a) :
    Fresh Φ f a ∧ ∀ nd ∈ nodes, ∃ P, S.load f nd.defn = .ok P ∧ a.defs nd.defn = some ⟨P, false⟩ := by
  have hread : ∀ (ns : List Node) (a1 b : App S), a1.files = f →
      (∀ n D, a1.defs n = some D → S.load f n = .ok D.params ∧ D.modified = false) → readDefs ns a1 = .ok () b →
      b.files = f ∧ b.current = a1.current ∧ b.prob = a1.prob ∧
        (∀ n D, b.defs n = some D → S.load f n = .ok D.params ∧ D.modified = false) ∧
        (∀ n D, a1.defs n = some D → b.defs n = some D) ∧ ∀ nd ∈ ns, ∃ D, b.defs nd.defn = some D := by
    intro ns
    induction ns with
    | nil =>
      intro a1 b h1 h2 h3
      simp only [readDefs, pure_ok] at h3
      obtain ⟨_, rfl⟩ := h3
      exact ⟨h1, rfl, rfl, h2, fun _ _ => id, by simp⟩
    | cons nd rest ih =>
      intro a1 b h1 h2 h3
      unfold readDefs at h3
      rw [bind_run (get_run a1)] at h3
      cases hd : a1.defs nd.defn with
      | some D =>
        rw [hd] at h3
        obtain ⟨e1, e2, e3, e4, e5, e6⟩ := ih a1 b h1 h2 h3
        refine ⟨e1, e2, e3, e4, e5, fun x hx => ?_⟩
        rcases List.mem_cons.1 hx with rfl | hx
        · exact ⟨D, e5 _ _ hd⟩
        · exact e6 x hx
      | none =>
        rw [hd] at h3
        simp only [bind_ok, lift_ok, modify_ok] at h3
        obtain ⟨P, _, ⟨hP, rfl⟩, _, _, rfl, h4⟩ := h3
        rw [h1] at hP
        obtain ⟨e1, e2, e3, e4, e5, e6⟩ := ih _ b (by exact h1) (by
          intro n D hn
          dsimp only [upd] at hn
          split_ifs at hn with e
          · cases hn; subst e; exact ⟨hP, rfl⟩
          · exact h2 n D hn) h4
        refine ⟨e1, e2, e3, e4, fun n D hn => e5 n D ?_, fun x hx => ?_⟩
        · dsimp only [upd]
          split_ifs with e
          · subst e; rw [hd] at hn; cases hn
          · exact hn
        · rcases List.mem_cons.1 hx with rfl | hx
          · exact ⟨⟨P, false⟩, e5 _ _ (by simp [upd])⟩
          · exact e6 x hx
  unfold initApp at h
  simp only [bind_ok, modify_ok] at h
  obtain ⟨_, _, rfl, _, a1, h2, h3⟩ := h
  obtain ⟨e1, e2, e3, e4, _, e6⟩ := hread nodes _ a1 (by exact hf) (by intro n D hn; dsimp only at hn; rw [hdefs] at hn; cases hn) h2
  have hst : ∀ (ns : List Node) (a b : App S), readOps ns a = .ok () b → Still a b := by
    intro ns
    induction ns with
    | nil => intro a b h; exact (Keeps.pure Still.refl _).ok h
    | cons nd rest ih =>
      intro a b h
      simp only [readOps, bind_ok] at h
      obtain ⟨_, a2, h1, h2⟩ := h
      refine Still.trans _ _ _ ?_ (ih _ _ h2)
      refine Keeps.ok (m := readOp nd) ?_ h1
      unfold readOp construct
      split
      · exact Keeps.pure Still.refl _
      · refine Keeps.bind Still.trans (Keeps.bind Still.trans (Keeps.lift Still.refl _) fun q => Keeps.bind Still.trans ?_ fun _ =>
          Keeps.pure Still.refl _) fun _ => Keeps.modify fun a => ⟨rfl, rfl, rfl, rfl, rfl, rfl⟩
        unfold register checkCriterion registerValue registerGradZ registerGradX
        still
  have s := hst nodes a1 a h3
  refine ⟨⟨s.files.trans e1, fun D hD _ => ?_⟩, fun nd hnd => ?_⟩
  · rw [s.current, s.defs, e2] at hD
    exact (hctor D.params (e4 _ D hD).1).of_prob Φ (s.prob.trans e3)
  · obtain ⟨D, hD⟩ := e6 nd hnd
    obtain ⟨l1, l2⟩ := e4 _ D hD
    refine ⟨D.params, l1, ?_⟩
    rw [s.defs, hD, ← l2]

/-- **C94.**  From the input to a value.  After `initialize` and any history of imports, exports and operations that
return, the value that an operation computes is that of the criterion for the parameters of the problem definition of
this operation, as loaded from the input and with all imports of parameters so far, for the mesh of these parameters,
the present topology and the solution for all these, less the target.  Neither the definitions of other operations nor
their parameters, nor the solutions that were computed or imported before, have an influence.  An operation that
computes the gradient as well leaves the gradient for the same data.

Partial: without `ReloadMesh` (`C94_reload_false`), without `UpdateProblem`, without exceptions (`C94_failed_false`) and
for dimensions 1, 2, 3 (`C94_dimension_false`). -/
theorem C94_value_partial {nodes : List Node} {a0 a b d : App S} {hist : List (Cmd S)} {nd : Node} {k : Kind} {c : Str}
    {t : ℝ} (hdim : ∀ P d, S.dims P = .ok d → d = 3 ∨ d = 2 ∨ d = 1) (hfiles : a0.files = f)
    (hdefs : ∀ n, a0.defs n = none) (hctor : ∀ P, S.load f a0.current = .ok P → Holds Φ a0 f P)
    (hinit : initApp nodes a0 = .ok () a) (hnames : nodes.Pairwise fun x y => x.name ≠ y.name)
    (hplain : ∀ cmd ∈ hist, cmd.plain a.ops) (hhist : exec hist a = .ok () b) (hnd : nd ∈ nodes)
    (hkind : nd.kind = some k) (hk : k.valueOf = some (c, t)) (hrun : compute nd.name b = .ok () d) :
    ∃ P0 P m n, S.load f nd.defn = .ok P0 ∧ updated a.ops nd.defn hist P0 = .ok P ∧ Reads f P m n ∧
      d.values c = some (Φ.V m n P d.control (Φ.U m n P d.control) c - t) ∧
      (∀ t', k = .criterion c t' → d.gradsZ c = some (Φ.G m n P d.control (Φ.U m n P d.control) c)) ∧
      (∀ t', k = .criterionX c t' → d.gradsX c = some (Φ.GX m n P d.control (Φ.U m n P d.control) c)) := by
  obtain ⟨hfr, hload⟩ := fresh_init Φ hfiles hdefs hctor hinit
  obtain ⟨P0, l1, l2⟩ := hload nd hnd
  obtain ⟨a', _, _, hr⟩ := initApp_ok hinit
  obtain ⟨op, o1, o2, o3⟩ := (readOps_ok hr).2.2.2.2 hnames nd hnd k hkind
  obtain ⟨g1, g2, g3⟩ := exec_fresh Φ hdim hfr hplain hhist
  obtain ⟨D, d1, d2⟩ := g2 _ _ l2
  have hk3 := g3 nd.name
  rw [o1] at hk3
  cases hob : b.ops nd.name with
  | none => rw [hob] at hk3; simp at hk3
  | some op' =>
    rw [hob] at hk3
    simp only [Option.map_some, Option.some.injEq, Op.fixed, Prod.mk.injEq] at hk3
    have hdn : op'.defn = nd.defn := hk3.2.1.trans o3
    have hkk : op'.kind = k := hk3.1.trans o2
    obtain ⟨D', a1, x1, x2, x3⟩ := compute_ok hob hrun
    rw [hdn, d1] at x1
    cases x1
    rw [hdn] at x2
    obtain ⟨e1, e2, e3, e4, p, m, n, e5, e6, e7⟩ := prepare_ok Φ hdim g1 d1 x2
    refine ⟨P0, D.params, m, n, l1, d2, e6, ?_⟩
    unfold runOp at x3
    rw [hkk] at x3
    have lin : ∀ s : Sol, (Φ.lin m n D.params c = false → s = Φ.U m n D.params a1.control) →
        Φ.G m n D.params a1.control s c = Φ.G m n D.params a1.control (Φ.U m n D.params a1.control) c ∧
        Φ.GX m n D.params a1.control s c = Φ.GX m n D.params a1.control (Φ.U m n D.params a1.control) c := by
      intro s hs
      cases hl : Φ.lin m n D.params c with
      | false => rw [hs hl]; exact ⟨rfl, rfl⟩
      | true => exact ⟨Φ.G_lin _ _ _ _ _ _ _ hl, Φ.GX_lin _ _ _ _ _ _ _ hl⟩
    cases k <;> simp only [Kind.valueOf, Option.some.injEq, Prod.mk.injEq, reduceCtorEq] at hk
    · obtain ⟨rfl, rfl⟩ := hk
      simp only [bind_ok] at x3
      obtain ⟨_, a2, y1, y2⟩ := x3
      obtain ⟨v1, v2, _, p', v3, v4, v5⟩ := criterionValue_spec Φ e5 e7 y1
      obtain ⟨w1, p'', _, _, w4⟩ := gradZ_spec Φ v3 v4 y2
      have hc2 : a2.control = a1.control := by rw [v5]
      have hcd : d.control = a1.control := by rw [w4, hc2]
      refine ⟨by rw [hcd, w4]; exact v1, fun t' _ => ?_, fun t' e => absurd e (by simp)⟩
      rw [w1, hcd, hc2, (lin _ v2).1]
    · obtain ⟨rfl, rfl⟩ := hk
      simp only [bind_ok] at x3
      obtain ⟨_, a2, y1, y2⟩ := x3
      obtain ⟨v1, v2, _, p', v3, v4, v5⟩ := criterionValue_spec Φ e5 e7 y1
      obtain ⟨w1, p'', _, _, w4⟩ := gradX_spec Φ v3 v4 y2
      have hc2 : a2.control = a1.control := by rw [v5]
      have hcd : d.control = a1.control := by rw [w4, hc2]
      refine ⟨by rw [hcd, w4]; exact v1, fun t' e => absurd e (by simp), fun t' _ => ?_⟩
      rw [w1, hcd, hc2, (lin _ v2).2]
    · obtain ⟨rfl, rfl⟩ := hk
      obtain ⟨v1, v2, _, p', v3, v4, v5⟩ := criterionValue_spec Φ e5 e7 x3
      have hcd : d.control = a1.control := by rw [v5]
      exact ⟨by rw [hcd]; exact v1, fun t' e => absurd e (by simp), fun t' e => absurd e (by simp)⟩

end Plato.Mpmd
