import Verif.Mpmd.Chain

/-!
# Meshes that change, and the topology (C99)
-/

namespace Plato.Mpmd
open Plato

variable {S : Sim}

theorem Keeps.lift_bind {σ α β : Type} {R : σ → σ → Prop} (rf : ∀ a, R a a) {r : Res α} {f : α → Act σ β}
    (h : ∀ x, r = .ok x → Keeps R (f x)) : Keeps R (Mpmd.lift r >>= f : Act σ β) := by
  intro s
  cases r with
  | ok x => rw [bind_run (lift_run_ok rfl s)]; exact h x rfl s
  | err e => exact rf s
  | ub => trivial

/-! ## Meshes with the same number of nodes -/

/-- If mesh and topology have `N` nodes, the mesh still has and the topology is the same. -/
def Kept (N : Nat) (a b : App S) : Prop :=
  a.mesh.nverts = N → a.control.length = N → b.mesh.nverts = N ∧ b.control = a.control ∧ b.meshMap = a.meshMap

theorem Kept.refl (N : Nat) (a : App S) : Kept N a a := fun h _ => ⟨h, rfl, rfl⟩

theorem Kept.trans {N : Nat} (a b c : App S) (h : Kept N a b) (k : Kept N b c) : Kept N a c := by
  intro h1 h2
  obtain ⟨e1, e2, e3⟩ := h h1 h2
  obtain ⟨f1, f2, f3⟩ := k e1 (by rw [e2]; exact h2)
  exact ⟨f1, f2.trans e2, f3.trans e3⟩

/-- Closes goals of the form `Keeps (Kept N) m`. -/
macro "kept" : tactic => `(tactic|
  repeat' first
    | exact Keeps.lift (Kept.refl _) _
    | exact Keeps.pure (Kept.refl _) _
    | exact Keeps.get (Kept.refl _)
    | exact Keeps.modify fun a h _ => ⟨h, rfl, rfl⟩
    | (refine Keeps.bind Kept.trans ?_ fun x => ?_)
    | (rcases x with ⟨_, _⟩; dsimp only)
    | split)

section
variable {N : Nat}

theorem kept_deref : Keeps (Kept (S := S) N) (deref : Act (App S) S.Prob) := by unfold deref; kept

theorem kept_solve : Keeps (Kept (S := S) N) (solve : Act (App S) Unit) := by
  unfold solve
  refine Keeps.bind Kept.trans kept_deref fun p => ?_
  kept

theorem kept_create (hN : ∀ f P m, S.readMesh f P = .ok m → m.nverts = N) (n : Str) (P : Params)
    (cl : App S → App S) (hcl : ∀ a, (cl a).mesh = a.mesh ∧ (cl a).control = a.control ∧ (cl a).meshMap = a.meshMap) :
    Keeps (Kept (S := S) N) (createProblem n P cl) := by
  unfold createProblem build
  refine Keeps.bind Kept.trans (Keeps.modify fun a h _ => ⟨h, rfl, rfl⟩) fun _ => ?_
  refine Keeps.bind Kept.trans (Keeps.get (Kept.refl _)) fun a => ?_
  refine Keeps.lift_bind (Kept.refl _) fun m hm => ?_
  refine Keeps.bind Kept.trans (Keeps.modify fun a _ _ => ⟨hN _ _ _ hm, rfl, rfl⟩) fun _ => ?_
  refine Keeps.bind Kept.trans (Keeps.lift (Kept.refl _) _) fun d => ?_
  refine Keeps.bind Kept.trans (Keeps.modify fun a h _ => ⟨h, rfl, rfl⟩) fun _ => ?_
  refine Keeps.bind Kept.trans ?_ fun _ => Keeps.modify fun a h _ => ⟨by rw [(hcl a).1]; exact h, (hcl a).2⟩
  kept

theorem kept_createFrom (hN : ∀ f P m, S.readMesh f P = .ok m → m.nverts = N) (n : Str) :
    Keeps (Kept (S := S) N) (createFrom n) := by
  unfold createFrom
  refine Keeps.bind Kept.trans (Keeps.get (Kept.refl _)) fun a => ?_
  split
  · exact kept_create hN n _ _ fun _ => ⟨rfl, rfl, rfl⟩
  · exact Keeps.lift (Kept.refl _) _

theorem kept_reset : Keeps (Kept (S := S) N) (resetProblemMetaData : Act (App S) Unit) := by
  unfold resetProblemMetaData
  refine Keeps.bind Kept.trans kept_deref fun p => ?_
  refine Keeps.bind Kept.trans (Keeps.modify fun a h _ => ⟨h, rfl, rfl⟩) fun _ => ?_
  refine Keeps.modify fun a h1 h2 => ?_
  rw [if_neg (by rw [h1, h2]; simp)]
  exact ⟨h1, rfl, rfl⟩

theorem kept_value (c : Str) (t : ℝ) : Keeps (Kept (S := S) N) (criterionValue c t : Act (App S) Unit) := by
  unfold criterionValue solveFor
  refine Keeps.bind Kept.trans (Keeps.bind Kept.trans kept_deref fun p => ?_) fun _ => ?_
  · split
    · exact kept_solve
    · exact Keeps.pure (Kept.refl _) _
  · refine Keeps.bind Kept.trans kept_deref fun p => ?_
    kept

theorem kept_gradZ (c : Str) : Keeps (Kept (S := S) N) (criterionGradZ c : Act (App S) Unit) := by
  unfold criterionGradZ
  refine Keeps.bind Kept.trans kept_deref fun p => ?_
  kept

theorem kept_gradX (c : Str) : Keeps (Kept (S := S) N) (criterionGradX c : Act (App S) Unit) := by
  unfold criterionGradX
  refine Keeps.bind Kept.trans kept_deref fun p => ?_
  kept

theorem kept_hostMirror (n : Str) : Keeps (Kept (S := S) N) (hostMirror n : Act (App S) (List ℝ)) := by
  unfold hostMirror; kept

theorem kept_hdf5 : ∀ ns, Keeps (Kept (S := S) N) (hdf5Loop ns : Act (App S) Unit)
  | [] => Keeps.pure (Kept.refl _) _
  | n :: ns => by
    unfold hdf5Loop
    exact Keeps.bind Kept.trans (kept_hostMirror n) fun x =>
      Keeps.bind Kept.trans (Keeps.modify fun a h _ => ⟨h, rfl, rfl⟩) fun _ => kept_hdf5 ns

theorem kept_runOp (hN : ∀ f P m, S.readMesh f P = .ok m → m.nverts = N) (o : Str) (op : Op) :
    Keeps (Kept (S := S) N) (runOp o op) := by
  unfold runOp
  cases op.kind with
  | solution => exact kept_solve
  | reinitialize b =>
    dsimp only
    refine Keeps.bind Kept.trans (Keeps.get (Kept.refl _)) fun a => ?_
    refine Keeps.bind Kept.trans (Keeps.modify fun a h _ => ⟨h, rfl, rfl⟩) fun _ => ?_
    refine Keeps.bind Kept.trans (by unfold hasChanged; kept) fun ch => ?_
    split_ifs
    · refine Keeps.bind Kept.trans (Keeps.get (Kept.refl _)) fun a => ?_
      exact Keeps.bind Kept.trans (kept_createFrom hN _) fun _ => kept_reset
    · exact Keeps.pure (Kept.refl _) _
  | update =>
    dsimp only
    refine Keeps.bind Kept.trans kept_deref fun p => ?_
    kept
  | criterion c t => exact Keeps.bind Kept.trans (kept_value c t) fun _ => kept_gradZ c
  | criterionX c t => exact Keeps.bind Kept.trans (kept_value c t) fun _ => kept_gradX c
  | value c t => exact kept_value c t
  | gradient c => exact kept_gradZ c
  | gradientX c => exact kept_gradX c
  | mapX c ins => dsimp only; kept
  | difference d => dsimp only; unfold difference; kept
  | reloadMesh =>
    dsimp only
    refine Keeps.bind Kept.trans (Keeps.get (Kept.refl _)) fun a => ?_
    exact Keeps.bind Kept.trans (kept_create hN _ _ _ fun _ => ⟨rfl, rfl, rfl⟩) fun _ => kept_reset
  | hdf5 ns => exact Keeps.bind Kept.trans (Keeps.modify fun a h _ => ⟨h, rfl, rfl⟩) fun _ => kept_hdf5 ns
  | output => exact Keeps.pure (Kept.refl _) _

theorem kept_cmd (hN : ∀ f P m, S.readMesh f P = .ok m → m.nverts = N) {c : Cmd S}
    (hc : ∀ z, c ≠ .importField sTopology z) : Keeps (Kept (S := S) N) c.run := by
  cases c with
  | importField n d =>
    have hn : n ≠ sTopology := fun e => hc d (by rw [e])
    change Keeps _ (importField n d)
    unfold importField
    refine Keeps.bind Kept.trans (Keeps.get (Kept.refl _)) fun a => ?_
    rw [if_neg hn]
    kept
  | importParameter o n d =>
    change Keeps _ (importParameter o n d)
    unfold importParameter
    kept
  | importValue n d =>
    change Keeps _ (importValue n d)
    unfold importValue
    kept
  | compute o =>
    change Keeps _ (compute o)
    unfold compute prepare
    refine Keeps.bind Kept.trans (Keeps.get (Kept.refl _)) fun a => ?_
    split
    · exact Keeps.lift (Kept.refl _) _
    · split
      · exact Keeps.lift (Kept.refl _) _
      · refine Keeps.bind Kept.trans ?_ fun _ => kept_runOp hN _ _
        split_ifs
        · exact Keeps.bind Kept.trans (kept_createFrom hN _) fun _ => kept_reset
        · exact kept_createFrom hN _
        · exact Keeps.pure (Kept.refl _) _
  | «export» n l k =>
    refine Keeps.bind Kept.trans ?_ fun _ => Keeps.pure (Kept.refl _) _
    have hu : ∀ m c g, Keeps (Kept (S := S) N) (unmapGrad m c g : Act (App S) (List ℝ)) := fun m c g => by
      unfold unmapGrad; kept
    unfold exportData
    refine Keeps.bind Kept.trans (Keeps.lift (Kept.refl _) _) fun x => ?_
    rcases x with ⟨f, i⟩
    cases l with
    | scalar => dsimp only; unfold exportValue; kept
    | field =>
      dsimp only
      unfold exportField
      kept
      all_goals exact hu _ _ _
  | files f => exact Keeps.modify fun a h _ => ⟨h, rfl, rfl⟩

theorem kept_execAll (hN : ∀ f P m, S.readMesh f P = .ok m → m.nverts = N) : ∀ {cs : List (Cmd S)} {a b : App S},
    (∀ c ∈ cs, ∀ z, c ≠ .importField sTopology z) → execAll cs a = some b → Kept N a b
  | [], a, b, _, h => by cases Option.some.inj h; exact Kept.refl _ _
  | c :: cs, a, b, hc, h => by
    have h1 := kept_cmd hN (hc c (by simp)) a
    unfold execAll at h
    cases e : c.run a with
    | ok _ d => rw [e] at h h1; exact Kept.trans _ _ _ h1 (kept_execAll hN (fun x hx => hc x (by simp [hx])) h)
    | err _ d => rw [e] at h h1; exact Kept.trans _ _ _ h1 (kept_execAll hN (fun x hx => hc x (by simp [hx])) h)
    | ub => rw [e] at h; cases h

end

/-- **C99.**  If all meshes have the same number of nodes, an exported topology is the one that was imported last, after
any history of operations, also of other definitions, after changes of the files, exceptions and creations of the problem.

Partial: without a mesh map (`C93_roundtrip_false`), and for meshes of one number of nodes (`C99_switch_false`). -/
theorem C99_topology_partial {N : Nat} {a b : App S} {z : List ℝ} {hist : List (Cmd S)}
    (hN : ∀ f P m, S.readMesh f P = .ok m → m.nverts = N) (hm : a.mesh.nverts = N) (hc : a.control.length = N)
    (hq : a.meshMap = none) (hz : z.length = N) (hh : ∀ c ∈ hist, ∀ z, c ≠ .importField sTopology z)
    (h : execAll (.importField sTopology z :: hist) a = some b) :
    exportData sTopology .field N b = .ok (some z) b := by
  have h1 : (Cmd.importField sTopology z).run a = .ok () { a with control := z } := by
    change importField sTopology z a = _
    unfold importField
    rw [bind_run (get_run a), if_pos rfl,
      bind_run (lift_run_ok (show copyInto a.control z = .ok z by simp [copyInto, hz, hc]) _),
      bind_run (modify_run _ _), hq]
    rfl
  rw [execAll, h1] at h
  obtain ⟨_, e2, _⟩ := kept_execAll hN hh h hm hz
  unfold exportData
  rw [bind_run (lift_run_ok (fieldName_plain (by decide) (by decide)) _)]
  dsimp only
  unfold exportField
  rw [bind_run (get_run b), if_pos rfl, e2,
    bind_run (lift_run_ok (show copyFrom N z = .ok z by simp [copyFrom, hz]) _)]
  rfl

/-! ## Meshes with different numbers of nodes -/

/-- Members that decide about mesh and topology are the same. -/
structure Firm (a b : App S) : Prop where
  files : b.files = a.files
  current : b.current = a.current
  default : b.default = a.default
  defs : b.defs = a.defs
  control : b.control = a.control
  mesh : b.mesh = a.mesh

theorem Firm.refl (a : App S) : Firm a a := ⟨rfl, rfl, rfl, rfl, rfl, rfl⟩

theorem Firm.trans (a b c : App S) (h : Firm a b) (k : Firm b c) : Firm a c :=
  ⟨k.files.trans h.files, k.current.trans h.current, k.default.trans h.default, k.defs.trans h.defs,
    k.control.trans h.control, k.mesh.trans h.mesh⟩

/-- Closes goals of the form `Keeps Firm m`. -/
macro "firm" : tactic => `(tactic|
  repeat' first
    | exact Keeps.lift Firm.refl _
    | exact Keeps.pure Firm.refl _
    | exact Keeps.get Firm.refl
    | exact Keeps.modify fun a => ⟨rfl, rfl, rfl, rfl, rfl, rfl⟩
    | (refine Keeps.bind Firm.trans ?_ fun x => ?_)
    | (rcases x with ⟨_, _⟩; dsimp only)
    | split)

theorem firm_deref : Keeps Firm (deref : Act (App S) S.Prob) := by unfold deref; firm

theorem firm_solve : Keeps Firm (solve : Act (App S) Unit) := by
  unfold solve
  refine Keeps.bind Firm.trans firm_deref fun p => ?_
  firm

theorem firm_value (c : Str) (t : ℝ) : Keeps Firm (criterionValue c t : Act (App S) Unit) := by
  unfold criterionValue solveFor
  refine Keeps.bind Firm.trans (Keeps.bind Firm.trans firm_deref fun p => ?_) fun _ => ?_
  · split
    · exact firm_solve
    · exact Keeps.pure Firm.refl _
  · refine Keeps.bind Firm.trans firm_deref fun p => ?_
    firm

theorem firm_gradZ (c : Str) : Keeps Firm (criterionGradZ c : Act (App S) Unit) := by
  unfold criterionGradZ
  refine Keeps.bind Firm.trans firm_deref fun p => ?_
  firm

theorem firm_gradX (c : Str) : Keeps Firm (criterionGradX c : Act (App S) Unit) := by
  unfold criterionGradX
  refine Keeps.bind Firm.trans firm_deref fun p => ?_
  firm

theorem firm_hdf5 : ∀ ns, Keeps Firm (hdf5Loop ns : Act (App S) Unit)
  | [] => Keeps.pure Firm.refl _
  | n :: ns => by
    unfold hdf5Loop
    exact Keeps.bind Firm.trans (by unfold hostMirror; firm) fun x =>
      Keeps.bind Firm.trans (Keeps.modify fun a => ⟨rfl, rfl, rfl, rfl, rfl, rfl⟩) fun _ => firm_hdf5 ns

/-- Targets of parameters that do not name the mesh: an import does not change the mesh that is read. -/
def Apart (S : Sim) (t : Str) : Prop :=
  ∀ f P v Q, parseInline P t v = .ok Q → S.readMesh f Q = S.readMesh f P

/-- Topology and mesh have the same size, and the mesh is that of the present definition. -/
structure Fit (a : App S) : Prop where
  size : a.control.length = a.mesh.nverts
  mesh : ∀ D, a.defs a.current = some D → S.readMesh a.files D.params = .ok a.mesh
  default : ∀ D, a.defs a.default.1 = some D → S.readMesh a.files D.params = S.readMesh a.files a.default.2
  target : ∀ o op n q, a.ops o = some op → op.parms n = some q → q.target ≠ [] → Apart S q.target
  map : ∀ m, a.meshMap = some m → ∀ z y, m.apply z = .ok y → y.length = z.length

theorem target_same {c : Str → Prop} {a b : App S} (h : Same c a b)
    (ht : ∀ o op n q, a.ops o = some op → op.parms n = some q → q.target ≠ [] → Apart S q.target) :
    ∀ o op n q, b.ops o = some op → op.parms n = some q → q.target ≠ [] → Apart S q.target := by
  intro o op n q ho hq
  have h1 := h.kind o
  rw [ho] at h1
  cases ho' : a.ops o with
  | none => rw [ho'] at h1; cases h1
  | some op' =>
    rw [ho'] at h1
    have h2 := Option.some.inj h1
    have h3 : (op.parms n).map Parm.target = (op'.parms n).map Parm.target :=
      congrFun (congrArg (fun x : Kind × Str × (Str → Option Str) => x.2.2) h2) n
    rw [hq] at h3
    cases hq' : op'.parms n with
    | none => rw [hq'] at h3; cases h3
    | some q' =>
      rw [hq'] at h3
      rw [Option.some.inj h3]
      exact ht o op' n q' ho' hq'

theorem Fit.firm {c : Str → Prop} {a b : App S} (h : Fit a) (k : Firm a b) (s : Same c a b) : Fit b where
  size := by rw [k.control, k.mesh]; exact h.size
  mesh D hD := by rw [k.files, k.mesh]; exact h.mesh D (by rw [← k.current, ← k.defs]; exact hD)
  default D hD := by
    rw [k.files, k.default]
    exact h.default D (by rw [← k.default, ← k.defs]; exact hD)
  target := target_same s h.target
  map := by rw [s.map]; exact h.map

/-- A problem is created from a definition. -/
theorem createProblem_mesh {n : Str} {P : Params} {cl : App S → App S} {a b : App S}
    (h : createProblem n P cl a = .ok () b) : ∃ m d p, S.readMesh a.files P = .ok m ∧
      b = cl { a with current := n, mesh := m, dims := d, prob := p } := by
  unfold createProblem at h
  simp only [bind_ok, lift_ok, modify_ok, get_ok] at h
  obtain ⟨_, _, rfl, _, _, ⟨rfl, rfl⟩, m, _, ⟨hm, rfl⟩, _, _, rfl, d, _, ⟨hd, rfl⟩, _, _, rfl, _, s, hb, rfl⟩ := h
  unfold build at hb
  split_ifs at hb
  · simp only [bind_ok, lift_ok, modify_ok] at hb
    obtain ⟨_, _, rfl, p, _, ⟨hp, rfl⟩, rfl⟩ := hb
    exact ⟨m, d, some p, hm, rfl⟩
  · simp only [pure_ok] at hb
    obtain ⟨_, rfl⟩ := hb
    exact ⟨m, d, _, hm, rfl⟩

/-- What is left to do by `resetProblemMetaData`. -/
structure Half (a : App S) : Prop where
  mesh : ∀ D, a.defs a.current = some D → S.readMesh a.files D.params = .ok a.mesh
  default : ∀ D, a.defs a.default.1 = some D → S.readMesh a.files D.params = S.readMesh a.files a.default.2
  target : ∀ o op n q, a.ops o = some op → op.parms n = some q → q.target ≠ [] → Apart S q.target
  map : ∀ m, a.meshMap = some m → ∀ z y, m.apply z = .ok y → y.length = z.length

theorem Fit.half {a : App S} (h : Fit a) : Half a := ⟨h.mesh, h.default, h.target, h.map⟩

theorem half_createFrom {n : Str} {a b : App S} (h : Half a) (hr : createFrom n a = .ok () b) :
    Half b ∧ b.control = a.control ∧ ∃ D, a.defs n = some D ∧ S.readMesh a.files D.params = .ok b.mesh := by
  unfold createFrom at hr
  rw [bind_run (get_run a)] at hr
  cases hD : a.defs n with
  | none => rw [hD] at hr; simp at hr
  | some D =>
    rw [hD] at hr
    obtain ⟨m, d, p, hm, rfl⟩ := createProblem_mesh hr
    refine ⟨⟨?_, ?_, h.target, h.map⟩, rfl, D, rfl, hm⟩
    · intro E hE
      simp only [clearDef, alter, if_true, hD, Option.map_some, Option.some.injEq] at hE
      subst hE
      exact hm
    · intro E hE
      simp only [clearDef, alter] at hE
      split_ifs at hE with e
      · rw [e, hD, Option.map_some, Option.some.injEq] at hE
        subst hE
        exact h.default D (by rw [e]; exact hD)
      · exact h.default E hE

theorem fit_reset {a b : App S} (h : Half a) (hr : resetProblemMetaData a = .ok () b) : Fit b := by
  unfold resetProblemMetaData at hr
  simp only [bind_ok, modify_ok, deref_ok] at hr
  obtain ⟨p, _, ⟨hp, rfl⟩, _, _, rfl, rfl⟩ := hr
  split_ifs with e
  · exact ⟨by simp, h.mesh, h.default, h.target, h.map⟩
  · exact ⟨not_not.mp e, h.mesh, h.default, h.target, h.map⟩

theorem fit_prepare {n : Str} {D : Defn} {a b : App S} (h : Fit a) (hr : prepare a.current n D a = .ok () b) : Fit b := by
  unfold prepare at hr
  split_ifs at hr with h1 h2
  · simp only [bind_ok] at hr
    obtain ⟨_, a1, h3, h4⟩ := hr
    exact fit_reset (half_createFrom h.half h3).1 h4
  · obtain ⟨e1, e2, E, e3, e4⟩ := half_createFrom h.half hr
    have hn : n = a.current := not_not.mp h1
    rw [hn] at e3
    have e5 := (h.mesh E e3).symm.trans e4
    exact ⟨by rw [e2, h.size, Res.ok.inj e5], e1.mesh, e1.default, e1.target, e1.map⟩
  · simp only [pure_ok] at hr
    obtain ⟨_, rfl⟩ := hr
    exact h

theorem fit_runOp {o : Str} {op : Op} {a b : App S} (h : Fit a) (hr : runOp o op a = .ok () b) : Fit b := by
  have hs : Same (fun _ => False) a b := (keeps_runOp (fun _ => False) o op (fun _ _ _ x => x)).ok hr
  unfold runOp at hr
  cases hk : op.kind with
  | solution => rw [hk] at hr; exact h.firm (firm_solve.ok hr) hs
  | reinitialize oc =>
    rw [hk] at hr
    simp only [bind_ok, get_ok, modify_ok] at hr
    obtain ⟨_, _, ⟨rfl, rfl⟩, _, _, rfl, ch, a3, h3, h4⟩ := hr
    have f1 : Fit a3 := by
      have g1 : ∀ x, Keeps Firm (hasChanged o op oc x : Act (App S) Bool) := fun x => by unfold hasChanged; firm
      have g2 := (g1 _).ok h3
      have g3 := (keeps_hasChanged (fun _ => False) _ _ _ _).ok h3
      exact h.firm (c := fun _ => False) ⟨g2.files, g2.current, g2.default, g2.defs, g2.control, g2.mesh⟩
        ⟨g3.value, g3.name, g3.kind, g3.map⟩
    cases ch with
    | false =>
      simp only [Bool.false_eq_true, if_false, pure_ok] at h4
      obtain ⟨_, rfl⟩ := h4
      exact f1
    | true =>
      simp only [if_true, bind_ok, get_ok] at h4
      obtain ⟨_, _, ⟨rfl, rfl⟩, _, a4, h5, h6⟩ := h4
      exact fit_reset (half_createFrom f1.half h5).1 h6
  | update =>
    rw [hk] at hr
    refine h.firm (Keeps.ok ?_ hr) hs
    exact Keeps.bind Firm.trans firm_deref fun p => by firm
  | criterion c t => rw [hk] at hr; exact h.firm (Keeps.ok (Keeps.bind Firm.trans (firm_value c t) fun _ => firm_gradZ c) hr) hs
  | criterionX c t => rw [hk] at hr; exact h.firm (Keeps.ok (Keeps.bind Firm.trans (firm_value c t) fun _ => firm_gradX c) hr) hs
  | value c t => rw [hk] at hr; exact h.firm ((firm_value c t).ok hr) hs
  | gradient c => rw [hk] at hr; exact h.firm ((firm_gradZ c).ok hr) hs
  | gradientX c => rw [hk] at hr; exact h.firm ((firm_gradX c).ok hr) hs
  | mapX c ins => rw [hk] at hr; dsimp only at hr; refine h.firm (Keeps.ok ?_ hr) hs; firm
  | difference d => rw [hk] at hr; dsimp only at hr; refine h.firm (Keeps.ok ?_ hr) hs; unfold difference; firm
  | reloadMesh =>
    rw [hk] at hr
    simp only [bind_ok, get_ok] at hr
    obtain ⟨_, _, ⟨rfl, rfl⟩, _, a1, h3, h4⟩ := hr
    obtain ⟨m, d, p, hm, rfl⟩ := createProblem_mesh h3
    refine fit_reset (a := { a with current := a.default.1, mesh := m, dims := d, prob := p }) ?_ h4
    exact ⟨fun D hD => (h.default D hD).trans hm, h.default, h.target, h.map⟩
  | hdf5 ns =>
    rw [hk] at hr
    simp only [bind_ok, modify_ok] at hr
    obtain ⟨_, _, rfl, h3⟩ := hr
    have g2 := (firm_hdf5 ns).ok h3
    exact h.firm ⟨g2.files, g2.current, g2.default, g2.defs, g2.control, g2.mesh⟩ hs
  | output => rw [hk] at hr; simp only [pure_ok] at hr; obtain ⟨_, rfl⟩ := hr; exact h

theorem fit_importField {n : Str} {x : List ℝ} {a b : App S} (h : Fit a) (hr : importField n x a = .ok () b) : Fit b := by
  unfold importField at hr
  rw [bind_run (get_run a)] at hr
  split_ifs at hr
  · have hcopy : ∀ {z}, copyInto a.control x = .ok z → z.length = a.mesh.nverts := by
      intro z hz
      unfold copyInto at hz
      split_ifs at hz with e
      · cases Res.ok.inj hz; rw [e]; exact h.size
      · simp [throwErr] at hz
    cases hm : a.meshMap with
    | none =>
      rw [hm] at hr
      simp only [bind_ok, lift_ok, modify_ok, pure_ok] at hr
      obtain ⟨z, s1, ⟨hz, rfl⟩, _, s2, rfl, _, rfl⟩ := hr
      exact ⟨hcopy hz, h.mesh, h.default, h.target, h.map⟩
    | some q =>
      rw [hm] at hr
      simp only [bind_ok, lift_ok, modify_ok] at hr
      obtain ⟨z, s1, ⟨hz, rfl⟩, _, s2, rfl, y, s3, ⟨hy, rfl⟩, rfl⟩ := hr
      exact ⟨(h.map q hm z y hy).trans (hcopy hz), h.mesh, h.default, h.target, h.map⟩
  · simp only [bind_ok, lift_ok, modify_ok] at hr
    obtain ⟨u, _, ⟨_, rfl⟩, w, _, ⟨_, rfl⟩, s, _, ⟨_, rfl⟩, rfl⟩ := hr
    exact ⟨h.size, h.mesh, h.default, h.target, h.map⟩
  · simp only [pure_ok] at hr
    obtain ⟨_, rfl⟩ := hr
    exact h

theorem fit_importParameter {o n : Str} {x : List ℝ} {a b : App S} (h : Fit a)
    (hr : importParameter o n x a = .ok () b) : Fit b := by
  have hs : Same (fun _ => False) a b := (keeps_importParameter (fun _ => False) o n x).ok hr
  have hm : b.mesh = a.mesh ∧ b.control = a.control ∧ b.default = a.default := by
    unfold importParameter at hr
    rw [bind_run (get_run a)] at hr
    have key : Keeps (fun a b : App S => b.mesh = a.mesh ∧ b.control = a.control ∧ b.default = a.default)
        (importParameter o n x) := by
      unfold importParameter
      repeat' first
        | exact Keeps.lift (fun _ => ⟨rfl, rfl, rfl⟩) _
        | exact Keeps.pure (fun _ => ⟨rfl, rfl, rfl⟩) _
        | exact Keeps.get (fun _ => ⟨rfl, rfl, rfl⟩)
        | exact Keeps.modify fun a => ⟨rfl, rfl, rfl⟩
        | (refine Keeps.bind (fun _ _ _ h k => ⟨k.1.trans h.1, k.2.1.trans h.2.1, k.2.2.trans h.2.2⟩) ?_ fun x => ?_)
        | split
    have := key a
    unfold importParameter at this
    rw [bind_run (get_run a), hr] at this
    exact this
  obtain ⟨op, q, ho, hq, e1, e2, _, e3⟩ := importParameter_ok hr
  have hdef : ∀ k D, b.defs k = some D → ∃ E, a.defs k = some E ∧
      S.readMesh a.files D.params = S.readMesh a.files E.params := by
    intro k D hD
    rcases e3 with ⟨_, e3⟩ | ⟨E, P, ht, hE, hP, e3⟩
    · rw [e3] at hD; exact ⟨D, hD, rfl⟩
    · rw [e3] at hD
      unfold upd at hD
      split_ifs at hD with e
      · cases Option.some.inj hD
        exact ⟨E, by rw [e]; exact hE, h.target o op n q ho hq ht _ _ _ _ hP⟩
      · exact ⟨D, hD, rfl⟩
  refine ⟨by rw [hm.1, hm.2.1]; exact h.size, ?_, ?_, target_same hs h.target, by rw [hs.map]; exact h.map⟩
  · intro D hD
    obtain ⟨E, hE, e4⟩ := hdef _ D hD
    rw [e1, e4, hm.1]
    exact h.mesh E (by rw [← e2]; exact hE)
  · intro D hD
    obtain ⟨E, hE, e4⟩ := hdef _ D hD
    rw [e1, e4, hm.2.2]
    exact h.default E (by rw [← hm.2.2]; exact hE)

theorem fit_cmd {c : Cmd S} {a b : App S} (h : Fit a) (hc : ∀ f, c ≠ .files f) (hr : c.run a = .ok () b) : Fit b := by
  cases c with
  | importField n d => exact fit_importField h hr
  | importParameter o n d => exact fit_importParameter h hr
  | importValue n d =>
    change importValue n d a = _ at hr
    exact h.firm (Keeps.ok (by unfold importValue; firm) hr) ((keeps_importValue (fun _ => False) n d).ok hr)
  | compute o =>
    change compute o a = _ at hr
    cases ho : a.ops o with
    | none =>
      unfold compute at hr
      rw [bind_run (get_run a), ho] at hr
      simp [throwErr] at hr
    | some op =>
      obtain ⟨D, a1, hD, h1, h2⟩ := compute_ok ho hr
      exact fit_runOp (fit_prepare h h1) h2
  | «export» n l k =>
    change (exportData n l k >>= fun _ => pure ()) a = _ at hr
    simp only [bind_ok, pure_ok] at hr
    obtain ⟨v, a1, h1, _, rfl⟩ := hr
    refine h.firm (Keeps.ok ?_ h1) ((keeps_export (fun _ => False) n l k).ok h1)
    have hu : ∀ m c g, Keeps Firm (unmapGrad m c g : Act (App S) (List ℝ)) := fun m c g => by unfold unmapGrad; firm
    unfold exportData
    refine Keeps.bind Firm.trans (Keeps.lift Firm.refl _) fun x => ?_
    rcases x with ⟨f, i⟩
    cases l with
    | scalar => dsimp only; unfold exportValue; firm
    | field =>
      dsimp only
      unfold exportField
      firm
      all_goals exact hu _ _ _
  | files f => exact absurd rfl (hc f)

theorem fit_exec : ∀ {cs : List (Cmd S)} {a b : App S}, Fit a → (∀ c ∈ cs, ∀ f, c ≠ .files f) → exec cs a = .ok () b → Fit b
  | [], a, b, h, _, hr => by
    simp only [exec, pure_ok] at hr
    obtain ⟨_, rfl⟩ := hr
    exact h
  | c :: cs, a, b, h, hc, hr => by
    simp only [exec, bind_ok] at hr
    obtain ⟨_, a1, h1, h2⟩ := hr
    exact fit_exec (fit_cmd h (hc c (by simp)) h1) (fun x hx => hc x (by simp [hx])) h2

/-- **C99.**  With definitions of different meshes, any history of commands that return leaves a topology of the size of
the present mesh: an export for the present mesh gives data, and a topology of this size is accepted.

Partial: commands that return (`C99_thrown_false`), files that do not change (`C99_files_false`), parameters that do not
name the mesh. -/
theorem C99_size_partial {a b : App S} {hist : List (Cmd S)} (h : Fit a) (hh : ∀ c ∈ hist, ∀ f, c ≠ .files f)
    (hr : exec hist a = .ok () b) :
    (∃ v, exportData sTopology .field b.mesh.nverts b = .ok (some v) b ∧ v.length = b.mesh.nverts) ∧
    ∀ z : List ℝ, z.length = b.mesh.nverts → b.meshMap = none →
      ∃ d, importField sTopology z b = .ok () d ∧ d.control = z := by
  have hf := fit_exec h hh hr
  constructor
  · refine ⟨b.control, ?_, hf.size⟩
    unfold exportData
    rw [bind_run (lift_run_ok (fieldName_plain (by decide) (by decide)) _)]
    dsimp only
    unfold exportField
    rw [bind_run (get_run b), if_pos rfl,
      bind_run (lift_run_ok (show copyFrom b.mesh.nverts b.control = .ok b.control by simp [copyFrom, hf.size]) _)]
    rfl
  · intro z hz hq
    refine ⟨{ b with control := z }, ?_, rfl⟩
    unfold importField
    rw [bind_run (get_run b), if_pos rfl,
      bind_run (lift_run_ok (show copyInto b.control z = .ok z by simp [copyInto, hz, hf.size]) _),
      bind_run (modify_run _ _), hq]
    rfl

/-! ## What is false -/

/-- Definitions with meshes of different numbers of nodes: as many as the name of the definition has characters. -/
noncomputable def toyM : Sim := { toy with
  load := fun _ name => .ok ((toyParams 1).set [['n']] (.int name.length))
  readMesh := fun _ P => match P.val [['n']] with
    | some (.int n) => .ok ⟨n.toNat, n.toNat⟩
    | _ => throwErr "no mesh" }

/-- Members before `initialize`, with the definition `d` of a mesh with one node. -/
noncomputable def toyMApp : App toyM where
  files := (0 : Nat)
  mesh := ⟨1, 1⟩
  dims := 1
  ndofs := 1
  current := ['d']
  default := (['d'], (toyParams 1).set [['n']] (.int 1))
  defs _ := none
  prob := some ((1 : Nat), (1 : ℝ))
  sol := [[0]]
  control := []
  values _ := none
  gradsZ _ := none
  gradsX _ := none
  valueName _ := none
  gradZName _ := none
  gradXName _ := none
  vals _ := none
  ops _ := none
  meshMap := none
  file := []

/-- **C99, what is false.**  An operation of a definition with another number of nodes resets the topology to ones: after
it, the topology that was imported is lost also for the first definition, and no error is reported. -/
theorem C99_switch_false : ∃ a b : App toyM,
    initApp [kNode ['p'] ['d'] .solution, kNode ['q'] ['e', 'e'] .solution] toyMApp = .ok () a ∧
    exec [.importField sTopology [7], .compute ['p'], .compute ['q'], .compute ['p']] a = .ok () b ∧
    exportData sTopology .field 1 b = .ok (some [1]) b :=
  ⟨_, _, rfl, rfl, rfl⟩

/-- **C99, what is false.**  The gradients are resized as copies: after `ReloadMesh` with another number of nodes the
export of a gradient for the present mesh throws. -/
theorem C99_gradient_false : ∃ a b d : App toy,
    initApp [⟨['p'], some (.gradient ['c']), ['d'], [(sGradient, ['g'])], []⟩, kNode ['q'] ['d'] .reloadMesh] (toyApp 2) =
      .ok () a ∧ exec [.files (3 : Nat), .compute ['q']] a = .ok () b ∧ b.mesh.nverts = 3 ∧
    exportData ['g'] .field 3 b = .err "deep_copy: extents of views don't match" d :=
  ⟨_, _, _, rfl, rfl, rfl, rfl⟩

/-- **C99, what is false.**  The files change and a parameter is imported: the next operation creates the problem for the
new mesh, but the topology keeps its old size, so that the export of the topology for the present mesh throws. -/
theorem C99_files_false : ∃ a b d : App toy, initApp [kNode ['p'] ['d'] (.gradient ['c'])] (toyApp 2) = .ok () a ∧
    exec [.files (3 : Nat), .importParameter ['p'] ['r'] [5], .compute ['p']] a = .ok () b ∧ b.mesh.nverts = 3 ∧
    b.control = [1, 1] ∧ exportData sTopology .field 3 b = .err "deep_copy: extents of views don't match" d :=
  ⟨_, _, _, rfl, rfl, rfl, rfl, rfl⟩

/-- **C99, what is false.**  The mesh is read, and the creation of the problem throws: topology and mesh have different
sizes. -/
theorem C99_thrown_false : ∃ a b d e : App toy,
    initApp [⟨['p'], some (.reinitialize false), ['d'], [], [(['r'], ['k'], 0)]⟩] { toyApp 2 with
      defs := fun _ => some ⟨(toyParams 1).set [['k']] (.int 1), false⟩ } = .ok () a ∧
    exec [.files (3 : Nat)] a = .ok () b ∧ compute ['p'] b = .err "InvalidParameter" d ∧ d.mesh.nverts = 3 ∧
    exportData sTopology .field 3 d = .err "deep_copy: extents of views don't match" e :=
  ⟨_, _, _, _, rfl, rfl, rfl, rfl, rfl⟩

/-- The hypotheses of `C99_topology_partial` are met by a problem whose meshes all have one node, with a change of the
files and another definition. -/
example : ∃ (S : Sim) (a b : App S) (hist : List (Cmd S)), (∀ f P m, S.readMesh f P = .ok m → m.nverts = 1) ∧
    a.mesh.nverts = 1 ∧ a.control.length = 1 ∧ a.meshMap = none ∧
    hist.length = 2 ∧ (∀ c ∈ hist, ∀ z, c ≠ .importField sTopology z) ∧
    execAll (.importField sTopology [7] :: hist) a = some b := by
  refine ⟨{ toy with readMesh := fun _ _ => .ok ⟨1, 1⟩ }, ⟨(1 : Nat), ⟨1, 1⟩, 1, 1, ['d'], (['d'], toyParams 1),
    fun _ => some ⟨toyParams 1, false⟩, some ((1 : Nat), (1 : ℝ)), [[0]], [1], fun _ => none, fun _ => none, fun _ => none,
    fun _ => none, fun _ => none, fun _ => none, fun _ => none, fun _ => some ⟨.solution, ['e'], fun _ => none, []⟩, none,
    []⟩, _, [.files (5 : Nat), .compute ['q']], ?_, rfl, rfl, rfl, rfl, ?_, rfl⟩
  · intro f P m h
    cases Res.ok.inj h
    rfl
  · intro c hc z
    simp only [List.mem_cons, List.not_mem_nil, or_false] at hc
    rcases hc with rfl | rfl <;> simp

/-- The hypotheses of `C99_size_partial` are met by two definitions of meshes with different numbers of nodes. -/
example : ∃ a b : App toyM, initApp [⟨['p'], some .solution, ['d'], [], []⟩, ⟨['q'], some .solution, ['e', 'e'], [], []⟩]
    toyMApp = .ok () a ∧ Fit a ∧
    exec [.importField sTopology [7], .compute ['q'], .importField sTopology [2, 3]] a = .ok () b ∧ b.mesh.nverts = 2 := by
  refine ⟨_, _, rfl, ⟨rfl, ?_, ?_, ?_, ?_⟩, rfl, rfl⟩
  · intro D hD
    change some _ = some D at hD
    cases hD
    rfl
  · intro D hD
    change some _ = some D at hD
    cases hD
    rfl
  · intro o op n q ho hq
    exfalso
    dsimp only [upd] at ho
    split_ifs at ho
    · cases ho; cases hq
    · cases ho; cases hq
    · cases ho
  · intro m hm
    cases hm

end Plato.Mpmd
