import Verif.Mpmd.Fresh

/-!
# Gradients from the stored solution, and what is false of problem definitions (C94)
-/

namespace Plato.Mpmd
open Plato

variable {S : Sim} (Φ : Physics S)

/-- The application holds the problem and the solution of the definition `n`, for its present parameters and the present
topology. -/
structure Solved (f : S.Files) (n : Str) (P : Params) (m : Mesh) (d : Nat) (a : App S) : Prop where
  files : a.files = f
  current : a.current = n
  defs : a.defs n = some ⟨P, false⟩
  reads : Reads f P m d
  prob : ∃ p, a.prob = some p ∧ Φ.inv m d P p
  sol : a.sol = Φ.U m d P a.control

variable {f : S.Files} {n : Str} {P : Params} {m : Mesh} {d : Nat} {a b : App S}

theorem Solved.still (h : Solved Φ f n P m d a) (k : Still a b) : Solved Φ f n P m d b where
  files := k.files.trans h.files
  current := k.current.trans h.current
  defs := by rw [k.defs]; exact h.defs
  reads := h.reads
  prob := by rw [k.prob]; exact h.prob
  sol := by rw [k.sol, k.control]; exact h.sol

/-- Operations that solve, or use the problem as it is. -/
def Kind.quiet : Kind → Prop
  | .update => False
  | .reloadMesh => False
  | .reinitialize _ => False
  | _ => True

theorem runOp_solved {o : Str} {op : Op} (hk : op.kind.quiet) (hs : Solved Φ f n P m d a) (h : runOp o op a = .ok () b) :
    Solved Φ f n P m d b := by
  obtain ⟨p, hp, hi⟩ := hs.prob
  have make : ∀ p', b.prob = some p' → Φ.inv m d P p' → b.files = a.files → b.current = a.current → b.defs = a.defs →
      b.control = a.control → (b.sol = Φ.U m d P a.control ∨ b.sol = a.sol) → Solved Φ f n P m d b :=
    fun p' e1 e2 e3 e4 e5 e6 e7 => ⟨e3.trans hs.files, e4.trans hs.current, by rw [e5]; exact hs.defs, hs.reads,
      ⟨p', e1, e2⟩, by rcases e7 with e7 | e7 <;> rw [e7, e6]; exact hs.sol⟩
  unfold runOp at h
  cases hkk : op.kind with
  | update => rw [hkk] at hk; exact hk.elim
  | reloadMesh => rw [hkk] at hk; exact hk.elim
  | reinitialize oc => rw [hkk] at hk; exact hk.elim
  | solution =>
    rw [hkk] at h
    obtain ⟨e0, p', e1, e2, e3⟩ := solve_spec Φ hp hi h
    exact make p' e1 e2 (by rw [e3]) (by rw [e3]) (by rw [e3]) (by rw [e3]) (Or.inl e0)
  | value c t =>
    rw [hkk] at h
    obtain ⟨_, g1, g2, p', e1, e2, e3⟩ := criterionValue_spec Φ hp hi h
    refine make p' e1 e2 (by rw [e3]) (by rw [e3]) (by rw [e3]) (by rw [e3]) ?_
    cases hl : Φ.lin m d P c with
    | false => exact Or.inl (g1 hl)
    | true => exact Or.inr (g2 hl)
  | criterion c t =>
    rw [hkk] at h
    simp only [bind_ok] at h
    obtain ⟨_, a1, h1, h2⟩ := h
    obtain ⟨_, g1, g2, p', e1, e2, e3⟩ := criterionValue_spec Φ hp hi h1
    obtain ⟨_, p'', f1, f2, f3⟩ := gradZ_spec Φ e1 e2 h2
    refine make p'' f1 f2 (by rw [f3, e3]) (by rw [f3, e3]) (by rw [f3, e3]) (by rw [f3, e3]) ?_
    have : b.sol = a1.sol := by rw [f3]
    rw [this]
    cases hl : Φ.lin m d P c with
    | false => exact Or.inl (g1 hl)
    | true => exact Or.inr (g2 hl)
  | criterionX c t =>
    rw [hkk] at h
    simp only [bind_ok] at h
    obtain ⟨_, a1, h1, h2⟩ := h
    obtain ⟨_, g1, g2, p', e1, e2, e3⟩ := criterionValue_spec Φ hp hi h1
    obtain ⟨_, p'', f1, f2, f3⟩ := gradX_spec Φ e1 e2 h2
    refine make p'' f1 f2 (by rw [f3, e3]) (by rw [f3, e3]) (by rw [f3, e3]) (by rw [f3, e3]) ?_
    have : b.sol = a1.sol := by rw [f3]
    rw [this]
    cases hl : Φ.lin m d P c with
    | false => exact Or.inl (g1 hl)
    | true => exact Or.inr (g2 hl)
  | gradient c =>
    rw [hkk] at h
    obtain ⟨_, p'', f1, f2, f3⟩ := gradZ_spec Φ hp hi h
    exact make p'' f1 f2 (by rw [f3]) (by rw [f3]) (by rw [f3]) (by rw [f3]) (Or.inr (by rw [f3]))
  | gradientX c =>
    rw [hkk] at h
    obtain ⟨_, p'', f1, f2, f3⟩ := gradX_spec Φ hp hi h
    exact make p'' f1 f2 (by rw [f3]) (by rw [f3]) (by rw [f3]) (by rw [f3]) (Or.inr (by rw [f3]))
  | mapX c ins =>
    rw [hkk] at h
    refine hs.still Φ (Keeps.ok (m := do
      let a ← get
      let out ← lift (mapLoop ((a.gradsX c).getD []) a.vals ins 0 ((a.vals sSensitivity).getD []))
      modify fun a => { a with vals := upd a.vals sSensitivity out }) ?_ h)
    still
  | difference δ =>
    rw [hkk] at h
    refine hs.still Φ (Keeps.ok (m := difference op δ) ?_ h)
    unfold difference
    still
  | hdf5 ns =>
    rw [hkk] at h
    simp only [bind_ok, modify_ok] at h
    obtain ⟨_, a1, rfl, h⟩ := h
    have s1 := (still_hdf5 ns).ok h
    exact hs.still Φ ⟨s1.files, s1.current, s1.defs, s1.prob, s1.control, s1.sol⟩
  | output =>
    rw [hkk] at h
    exact hs.still Φ ((Keeps.pure Still.refl _).ok h)

/-- Commands that leave the solution valid: exports, imports of values and other fields, parameters of other
definitions, quiet operations of the same definition. -/
def Cmd.quiet (ops : Str → Option Op) (n : Str) : Cmd S → Prop
  | .files _ => False
  | .compute o => ∀ op, ops o = some op → op.kind.quiet ∧ op.defn = n
  | .importField x _ => x ≠ sTopology ∧ x ≠ sSolution
  | .importParameter o name _ => ∀ op, ops o = some op → op.defn ≠ n ∨ (op.parms name).map Parm.target = some []
  | _ => True

theorem prepare_quiet {D : Defn} (hs : Solved Φ f n P m d a) (hD : a.defs n = some D)
    (h : prepare a.current n D a = .ok () b) : a = b := by
  rw [hs.defs] at hD
  cases hD
  unfold prepare at h
  rw [if_neg (by simp [hs.current])] at h
  simp only [Bool.false_eq_true, if_false, pure_ok] at h
  exact h.2

theorem step_solved {c : Cmd S} (hs : Solved Φ f n P m d a) (hq : c.quiet a.ops n) (h : c.run a = .ok () b) :
    Solved Φ f n P m d b := by
  cases c with
  | files f => exact hq.elim
  | importValue x y => exact hs.still Φ ((still_importValue x y).ok h)
  | «export» x l k =>
    simp only [Cmd.run, bind_ok, pure_ok] at h
    obtain ⟨v, b', h, _, rfl⟩ := h
    exact hs.still Φ ((still_export x l k).ok h)
  | importField x y =>
    change importField x y a = .ok () b at h
    unfold importField at h
    rw [bind_run (get_run a), if_neg hq.1, if_neg hq.2] at h
    simp only [pure_ok] at h
    obtain ⟨_, rfl⟩ := h
    exact hs
  | importParameter o name x =>
    have hst : b.control = a.control ∧ b.sol = a.sol := by
      have hk : Keeps (fun a b : App S => b.control = a.control ∧ b.sol = a.sol) (importParameter o name x) := by
        have rf : ∀ a : App S, a.control = a.control ∧ a.sol = a.sol := fun _ => ⟨rfl, rfl⟩
        have tr : ∀ a b c : App S, (b.control = a.control ∧ b.sol = a.sol) → (c.control = b.control ∧ c.sol = b.sol) →
            (c.control = a.control ∧ c.sol = a.sol) := fun a b c h k => ⟨k.1.trans h.1, k.2.trans h.2⟩
        unfold importParameter
        repeat' first
          | exact Keeps.lift rf _
          | exact Keeps.pure rf _
          | exact Keeps.get rf
          | exact Keeps.modify fun a => ⟨rfl, rfl⟩
          | (refine Keeps.bind tr ?_ fun x => ?_)
          | split
      exact hk.ok h
    obtain ⟨op, q, ho, hq', e1, e2, e3, e4⟩ := importParameter_ok h
    rcases e4 with ⟨_, hd⟩ | ⟨D, P', ht, hD, hP, hd⟩
    · exact hs.still Φ ⟨e1, e2, hd, e3, hst.1, hst.2⟩
    · have hne : op.defn ≠ n := by
        rcases hq op ho with hx | hx
        · exact hx
        · rw [hq'] at hx
          simp only [Option.map_some, Option.some.injEq] at hx
          exact absurd hx ht
      refine ⟨e1.trans hs.files, e2.trans hs.current, ?_, hs.reads, by rw [e3]; exact hs.prob,
        by rw [hst.1, hst.2]; exact hs.sol⟩
      rw [hd]
      simp only [upd, if_neg (Ne.symm hne)]
      exact hs.defs
  | compute o =>
    change compute o a = .ok () b at h
    cases ho : a.ops o with
    | none =>
      unfold compute at h
      rw [bind_run (get_run a), ho] at h
      simp [throwErr] at h
    | some op =>
      obtain ⟨k1, k2⟩ := hq op ho
      obtain ⟨D, a1, hD, h1, h2⟩ := compute_ok ho h
      rw [k2] at hD h1
      obtain rfl := prepare_quiet Φ hs hD h1
      exact runOp_solved Φ k1 hs h2

theorem quiet_congr {ops ops' : Str → Option Op} (h : ∀ o, (ops o).map Op.fixed = (ops' o).map Op.fixed) {c : Cmd S}
    (hp : c.quiet ops n) : c.quiet ops' n := by
  have look : ∀ o op, ops' o = some op → ∃ q, ops o = some q ∧ q.kind = op.kind ∧ q.defn = op.defn ∧
      ∀ x, (q.parms x).map Parm.target = (op.parms x).map Parm.target := by
    intro o op ho
    have he := h o
    rw [ho] at he
    cases h1 : ops o with
    | none => rw [h1] at he; simp at he
    | some q =>
      rw [h1] at he
      simp only [Option.map_some, Option.some.injEq, Op.fixed, Prod.mk.injEq] at he
      exact ⟨q, rfl, he.1, he.2.1, fun x => congrFun he.2.2 x⟩
  cases c with
  | compute o =>
    intro op ho
    obtain ⟨q, h1, h2, h3, _⟩ := look o op ho
    rw [← h2, ← h3]
    exact hp q h1
  | importParameter o name data =>
    intro op ho
    obtain ⟨q, h1, _, h3, h4⟩ := look o op ho
    rw [← h3, ← h4]
    exact hp q h1
  | files f => exact hp
  | importField n' d => exact hp
  | importValue n' d => trivial
  | «export» n' l k => trivial

theorem exec_solved {cs : List (Cmd S)} : ∀ {a b : App S}, Solved Φ f n P m d a → (∀ c ∈ cs, c.quiet a.ops n) →
    exec cs a = .ok () b → Solved Φ f n P m d b ∧ ∀ o, (b.ops o).map Op.fixed = (a.ops o).map Op.fixed := by
  induction cs with
  | nil =>
    intro a b hs _ h
    simp only [exec, pure_ok] at h
    obtain ⟨_, rfl⟩ := h
    exact ⟨hs, fun _ => rfl⟩
  | cons c cs ih =>
    intro a b hs hp h
    simp only [exec, bind_ok] at h
    obtain ⟨_, a1, h1, h2⟩ := h
    have s1 := step_solved Φ hs (hp c (by simp)) h1
    have hsm : Same (fun _ => False) a a1 := by
      have := keeps_cmd (fun _ => False) a c (fun _ _ _ _ _ _ _ => id)
      rw [h1] at this
      exact this
    obtain ⟨r1, r2⟩ := ih s1 (fun x hx => quiet_congr (fun o => (hsm.kind o).symm) (hp x (by simp [hx]))) h2
    exact ⟨r1, fun o => (r2 o).trans (hsm.kind o)⟩

/-- An operation that solves leaves the solution. -/
theorem solved_of_compute {o : Str} {op : Op} {D : Defn} (hdim : ∀ P d, S.dims P = .ok d → d = 3 ∨ d = 2 ∨ d = 1)
    (hf : Fresh Φ f a) (ho : a.ops o = some op) (hD : a.defs op.defn = some D)
    (hk : op.kind = .solution ∨ ∃ c t, op.kind.valueOf = some (c, t) ∧ ∀ m d, Φ.lin m d D.params c = false)
    (h : compute o a = .ok () b) : ∃ m d, Solved Φ f op.defn D.params m d b := by
  obtain ⟨D', a1, hD', h1, h2⟩ := compute_ok ho h
  rw [hD] at hD'
  cases hD'
  obtain ⟨e1, e2, e3, e4, p, m, d, e5, e6, e7⟩ := prepare_ok Φ hdim hf hD h1
  refine ⟨m, d, ?_⟩
  have make : ∀ p', b.prob = some p' → Φ.inv m d D.params p' → b.files = a1.files → b.current = a1.current →
      b.defs = a1.defs → b.control = a1.control → b.sol = Φ.U m d D.params a1.control →
      Solved Φ f op.defn D.params m d b :=
    fun p' x1 x2 x3 x4 x5 x6 x7 => ⟨x3.trans e1, x4.trans e2, by rw [x5]; exact e3, e6, ⟨p', x1, x2⟩, by rw [x7, x6]⟩
  unfold runOp at h2
  rcases hk with hk | ⟨c, t, hk, hl⟩
  · rw [hk] at h2
    obtain ⟨y0, p', y1, y2, y3⟩ := solve_spec Φ e5 e7 h2
    exact make p' y1 y2 (by rw [y3]) (by rw [y3]) (by rw [y3]) (by rw [y3]) y0
  · cases hkk : op.kind <;> rw [hkk] at h2 hk <;>
      simp only [Kind.valueOf, Option.some.injEq, Prod.mk.injEq, reduceCtorEq] at hk
    · obtain ⟨rfl, rfl⟩ := hk
      simp only [bind_ok] at h2
      obtain ⟨_, a2, y1, y2⟩ := h2
      obtain ⟨_, g1, g2, p', x1, x2, x3⟩ := criterionValue_spec Φ e5 e7 y1
      obtain ⟨_, p'', f1, f2, f3⟩ := gradZ_spec Φ x1 x2 y2
      exact make p'' f1 f2 (by rw [f3, x3]) (by rw [f3, x3]) (by rw [f3, x3]) (by rw [f3, x3])
        (by rw [f3]; exact g1 (hl m d))
    · obtain ⟨rfl, rfl⟩ := hk
      simp only [bind_ok] at h2
      obtain ⟨_, a2, y1, y2⟩ := h2
      obtain ⟨_, g1, g2, p', x1, x2, x3⟩ := criterionValue_spec Φ e5 e7 y1
      obtain ⟨_, p'', f1, f2, f3⟩ := gradX_spec Φ x1 x2 y2
      exact make p'' f1 f2 (by rw [f3, x3]) (by rw [f3, x3]) (by rw [f3, x3]) (by rw [f3, x3])
        (by rw [f3]; exact g1 (hl m d))
    · obtain ⟨rfl, rfl⟩ := hk
      obtain ⟨_, g1, g2, p', x1, x2, x3⟩ := criterionValue_spec Φ e5 e7 h2
      exact make p' x1 x2 (by rw [x3]) (by rw [x3]) (by rw [x3]) (by rw [x3]) (g1 (hl m d))

/-- **C94.**  An operation that computes a gradient only uses the stored solution.  If an operation of the same problem
definition solved, and since then neither the topology nor the solution nor a parameter of this definition were
imported and all operations were of this definition (any number of commands, all of which return), then the gradient is
the one for the present parameters, the present topology and their solution.

Partial: the conditions can't be dropped (`C94_stale_false`, `C94_switch_false`, `C94_reinitialize_false`). -/
theorem C94_gradient_partial {e g : App S} {o o' c : Str} {op op' : Op} {D : Defn} {hist : List (Cmd S)}
    (hdim : ∀ P d, S.dims P = .ok d → d = 3 ∨ d = 2 ∨ d = 1) (hf : Fresh Φ f a) (ho : a.ops o = some op)
    (hD : a.defs op.defn = some D)
    (hk : op.kind = .solution ∨ ∃ c t, op.kind.valueOf = some (c, t) ∧ ∀ m d, Φ.lin m d D.params c = false)
    (hrun : compute o a = .ok () b) (hq : ∀ cmd ∈ hist, cmd.quiet b.ops op.defn) (hhist : exec hist b = .ok () e)
    (ho' : e.ops o' = some op') (hdef : op'.defn = op.defn) (hgrad : compute o' e = .ok () g) :
    ∃ m d, Reads f D.params m d ∧
      (op'.kind = .gradient c →
        g.gradsZ c = some (Φ.G m d D.params g.control (Φ.U m d D.params g.control) c)) ∧
      (op'.kind = .gradientX c →
        g.gradsX c = some (Φ.GX m d D.params g.control (Φ.U m d D.params g.control) c)) := by
  obtain ⟨m, d, s1⟩ := solved_of_compute Φ hdim hf ho hD hk hrun
  obtain ⟨s2, _⟩ := exec_solved Φ s1 hq hhist
  obtain ⟨D', e1, hD', h1, h2⟩ := compute_ok ho' hgrad
  rw [hdef] at hD' h1
  obtain rfl := prepare_quiet Φ s2 hD' h1
  obtain ⟨p, hp, hi⟩ := s2.prob
  refine ⟨m, d, s2.reads, fun hk' => ?_, fun hk' => ?_⟩
  · unfold runOp at h2
    rw [hk'] at h2
    obtain ⟨x1, p', _, _, x4⟩ := gradZ_spec Φ hp hi h2
    have hc : g.control = e.control := by rw [x4]
    rw [x1, hc, s2.sol]
  · unfold runOp at h2
    rw [hk'] at h2
    obtain ⟨x1, p', _, _, x4⟩ := gradX_spec Φ hp hi h2
    have hc : g.control = e.control := by rw [x4]
    rw [x1, hc, s2.sol]

end Plato.Mpmd
