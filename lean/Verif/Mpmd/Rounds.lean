import Verif.Mpmd.Reinit

/-!
# Rounds of an optimization over shapes (C96)
-/

namespace Plato.Mpmd
open Plato

variable {S : Sim} (Φ : Physics S)

/-- The start of a round: the optimizer sends the parameters, the files are written from them, `Reinitialize` is
called. -/
def start (F : List ℝ → S.Files) (o : Str) (v : List ℝ) : List (Cmd S) :=
  [.importValue sParameters v, .files (F v), .compute o]

/-- Rounds: parameters, and what is done until the next round. -/
def rounds (F : List ℝ → S.Files) (o : Str) (rs : List (List ℝ × List (Cmd S))) : List (Cmd S) :=
  rs.flatMap fun r => start F o r.1 ++ r.2

/-- At the end of a round: the problem belongs to the files of the parameters that `Reinitialize` has seen. -/
structure Ready (F : List ℝ → S.Files) (o : Str) (d : Str) (oc : Bool) (a : App S) : Prop where
  op : ∃ op, a.ops o = some op ∧ op.kind = .reinitialize oc ∧ op.defn = d ∧
    (oc = true → op.last = [] ∨ a.files = F op.last)
  fresh : Fresh Φ a.files a

theorem importValue_ok {n : Str} {v : List ℝ} {a b : App S} (h : importValue n v a = .ok () b) :
    b = { a with vals := upd a.vals n v } := by
  unfold importValue at h
  rw [bind_run (get_run a)] at h
  cases hv : a.vals n with
  | none => rw [hv] at h; simp [throwErr] at h
  | some w =>
    rw [hv] at h
    simp only [modify_ok] at h
    exact h.symm

/-- A call of `Reinitialize` with the parameters of the last call. -/
theorem reinit_same {o : Str} {op : Op} {a : App S} {P : Params} (ho : a.ops o = some op)
    (hk : op.kind = .reinitialize true) (hv : a.vals sParameters = some op.last) (hne : op.last ≠ [])
    (hc : a.current = op.defn) (hD : a.defs op.defn = some ⟨P, false⟩) :
    compute o a = .ok () { a with vals := upd a.vals sParameters op.last } := by
  have hch : ∀ s : App S, hasChanged o op true op.last s = .ok false s := by
    intro s
    unfold hasChanged
    rw [if_pos rfl, if_neg (by simpa using hne), if_pos rfl]
    rfl
  unfold compute
  rw [bind_run (get_run a), ho]
  dsimp only
  rw [hD]
  dsimp only
  have hp : prepare a.current op.defn ⟨P, false⟩ a = .ok () a := by
    unfold prepare
    rw [if_neg (by simp [hc])]
    rfl
  rw [bind_run hp]
  unfold runOp
  rw [hk]
  dsimp only
  rw [bind_run (get_run a), bind_run (modify_run _ _), hv, Option.getD_some, bind_run (hch _)]
  rfl

theorem start_ok {F : List ℝ → S.Files} {o d : Str} {oc : Bool} {v : List ℝ} {a b : App S}
    (hdim : ∀ P d, S.dims P = .ok d → d = 3 ∨ d = 2 ∨ d = 1) (hr : Ready Φ F o d oc a)
    (h : exec (start F o v) a = .ok () b) :
    b.files = F v ∧ b.current = d ∧ (∃ P, b.defs d = some ⟨P, false⟩ ∧ (a.defs d).map Defn.params = some P ∧
      Holds Φ b (F v) P) ∧ Ready Φ F o d oc b := by
  obtain ⟨⟨op, ho, hk, hd, hl⟩, hf⟩ := hr
  simp only [start, exec, bind_ok, pure_ok] at h
  obtain ⟨_, a1, h1, _, a2, h2, _, a3, h3, _, rfl⟩ := h
  have hi := importValue_ok h1
  subst hi
  simp only [Cmd.run, modify_ok] at h2
  subst h2
  have hb : Belongs Φ a.files
      { a with vals := upd a.vals sParameters v, files := F v } := fun D hD hm => (hf.prob D hD hm).of_prob Φ rfl
  obtain ⟨e1, e2, ⟨P, e3, e4, e5⟩, op', e6, e7, e8, e9⟩ := reinit_run Φ (F := F) (g := a.files) (v := v) hdim hb rfl ho hk
    (by simp [upd]) hl h3
  rw [hd] at e2 e3 e4 e8
  refine ⟨e1, e2, ⟨P, e3, e4, e5⟩, ⟨op', e6, e7.trans hk, e8, fun hoc => Or.inr ?_⟩, ⟨rfl, ?_⟩⟩
  · rw [e1, e9 hoc]
  · intro D hD _
    rw [e2, e3] at hD
    cases hD
    rw [e1]
    exact e5

theorem rest_ok {F : List ℝ → S.Files} {o d : Str} {oc : Bool} {cs : List (Cmd S)} {a b : App S}
    (hdim : ∀ P d, S.dims P = .ok d → d = 3 ∨ d = 2 ∨ d = 1) (hr : Ready Φ F o d oc a) (hp : ∀ c ∈ cs, c.plain a.ops)
    (hc : ∀ c ∈ cs, c ≠ .compute o) (h : exec cs a = .ok () b) : Ready Φ F o d oc b := by
  obtain ⟨⟨op, ho, hk, hd, hl⟩, hf⟩ := hr
  obtain ⟨f1, _, f3⟩ := exec_fresh Φ hdim hf hp h
  have l := last_exec hc h
  have hfo := f3 o
  cases hob : b.ops o with
  | none => rw [hob, ho] at hfo; simp at hfo
  | some op' =>
    rw [hob, ho] at hfo
    simp only [Option.map_some, Option.some.injEq, Op.fixed, Prod.mk.injEq] at hfo
    have hl' : op'.last = op.last := by
      unfold lastOf at l
      rw [hob, ho] at l
      simpa using l
    refine ⟨⟨op', hob, hfo.1.trans hk, hfo.2.1.trans hd, fun hoc => ?_⟩, ⟨rfl, ?_⟩⟩
    · rw [hl', f1.files]
      exact hl hoc
    · rw [f1.files]
      exact f1.prob

theorem plain_fixed {ops ops' : Str → Option Op} (h : ∀ o, (ops o).map Op.fixed = (ops' o).map Op.fixed) {c : Cmd S}
    (hp : c.plain ops) : c.plain ops' := by
  cases c with
  | compute o =>
    intro op ho
    have he := h o
    rw [ho] at he
    cases h1 : ops o with
    | none => rw [h1] at he; simp at he
    | some q =>
      rw [h1] at he
      simp only [Option.map_some, Option.some.injEq, Op.fixed, Prod.mk.injEq] at he
      rw [← he.1]
      exact hp q h1
  | files f => exact hp
  | importField n d => trivial
  | importParameter o n d => trivial
  | importValue n d => trivial
  | «export» n l k => trivial

/-- The operations stay the same, but for the values of parameters and what `Reinitialize` stores. -/
theorem exec_fixed : ∀ {cs : List (Cmd S)} {a b : App S}, exec cs a = .ok () b →
    ∀ o, (b.ops o).map Op.fixed = (a.ops o).map Op.fixed
  | [], a, b, h => by
    simp only [exec, pure_ok] at h
    intro o
    rw [h.2]
  | c :: cs, a, b, h => by
    simp only [exec, bind_ok] at h
    obtain ⟨_, a1, h1, h2⟩ := h
    have hsm : Same (fun _ => False) a a1 := by
      have := keeps_cmd (fun _ => False) a c (fun _ _ _ _ _ _ _ => id)
      rw [h1] at this
      exact this
    intro o
    exact (exec_fixed h2 o).trans (hsm.kind o)

theorem rounds_ok {F : List ℝ → S.Files} {o d : Str} {oc : Bool}
    (hdim : ∀ P d, S.dims P = .ok d → d = 3 ∨ d = 2 ∨ d = 1) : ∀ {rs : List (List ℝ × List (Cmd S))} {a b : App S},
    Ready Φ F o d oc a → (∀ r ∈ rs, ∀ c ∈ r.2, c.plain a.ops ∧ c ≠ .compute o) → exec (rounds F o rs) a = .ok () b →
    Ready Φ F o d oc b
  | [], a, b, hr, _, h => by
    simp only [rounds, List.flatMap_nil, exec, pure_ok] at h
    rw [← h.2]
    exact hr
  | r :: rs, a, b, hr, hp, h => by
    have : rounds F o (r :: rs) = start F o r.1 ++ (r.2 ++ rounds F o rs) := by simp [rounds]
    rw [this, exec_append, exec_append] at h
    simp only [bind_ok] at h
    obtain ⟨_, a1, h1, _, a2, h2, h3⟩ := h
    have s1 := (start_ok Φ hdim hr h1).2.2.2
    have g1 := exec_fixed h1
    have s2 := rest_ok Φ hdim s1 (fun c hc => plain_fixed (fun o => (g1 o).symm) (hp r (by simp) c hc).1)
      (fun c hc => (hp r (by simp) c hc).2) h2
    have g2 := exec_fixed h2
    exact rounds_ok hdim s2
      (fun q hq c hc => ⟨plain_fixed (fun o => ((g2 o).trans (g1 o)).symm) (hp q (by simp [hq]) c hc).1,
        (hp q (by simp [hq]) c hc).2⟩) h3

/-- **C96.**  The files belong to design parameters, and are written by another program in each round.  After any number
of rounds, with any other operations, imports and exports between that return, `Reinitialize` leaves the problem of its
definition for the files of the present parameters and with all imported parameters, whether it creates the problem
again at each call (`OnChange` false) or only if the parameters differ from those of its last call, where it saves the
creation.

Partial: without exceptions (`C96_failed_false`), without `ReloadMesh` and `UpdateProblem`. -/
theorem C96_rounds_partial {F : List ℝ → S.Files} {o : Str} {op : Op} {oc : Bool} {v : List ℝ}
    {rs : List (List ℝ × List (Cmd S))} {f : S.Files} {a b d : App S}
    (hdim : ∀ P d, S.dims P = .ok d → d = 3 ∨ d = 2 ∨ d = 1) (hf : Fresh Φ f a) (ho : a.ops o = some op)
    (hk : op.kind = .reinitialize oc) (hl : op.last = [])
    (hp : ∀ r ∈ rs, ∀ c ∈ r.2, c.plain a.ops ∧ c ≠ .compute o) (hrs : exec (rounds F o rs) a = .ok () b)
    (h : exec (start F o v) b = .ok () d) :
    d.files = F v ∧ d.current = op.defn ∧ ∃ P, d.defs op.defn = some ⟨P, false⟩ ∧
      (b.defs op.defn).map Defn.params = some P ∧ Holds Φ d (F v) P := by
  have hr : Ready Φ F o op.defn oc a := ⟨⟨op, ho, hk, rfl, fun _ => Or.inl hl⟩, by rw [hf.files]; exact hf⟩
  obtain ⟨e1, e2, e3, _⟩ := start_ok Φ hdim (rounds_ok Φ hdim hr hp hrs) h
  exact ⟨e1, e2, e3⟩

/-- **C96.**  With `OnChange`, a round with the same parameters leaves the problem and the solution as they are. -/
theorem C96_unchanged {F : List ℝ → S.Files} {o : Str} {op : Op} {v : List ℝ} {a b : App S} {P : Params}
    (ho : a.ops o = some op) (hk : op.kind = .reinitialize true) (hl : op.last = v) (hv : v ≠ [])
    (hc : a.current = op.defn) (hD : a.defs op.defn = some ⟨P, false⟩) (h : exec (start F o v) a = .ok () b) :
    b.prob = a.prob ∧ b.sol = a.sol ∧ b.control = a.control ∧ b.mesh = a.mesh := by
  simp only [start, exec, bind_ok, pure_ok] at h
  obtain ⟨_, a1, h1, _, a2, h2, _, a3, h3, _, rfl⟩ := h
  have hi := importValue_ok h1
  subst hi
  simp only [Cmd.run, modify_ok] at h2
  subst h2
  subst hl
  have hr := reinit_same (a := { a with vals := upd a.vals sParameters op.last, files := F op.last }) ho hk
    (by simp [upd]) hv hc hD
  change compute o _ = _ at h3
  rw [hr] at h3
  obtain ⟨_, rfl⟩ := Out.ok.inj h3
  exact ⟨rfl, rfl, rfl, rfl⟩

/-- Reading fails if there is no file. -/
noncomputable def toyF : Sim := { toy with
  Files := Nat
  load := fun _ name => .ok (toyParams name.length)
  readMesh := fun f _ => if f = 0 then throwErr "no file" else .ok ⟨f, f⟩ }

/-- Members before `initialize`. -/
noncomputable def toyFApp (n : Nat) : App toyF where
  files := n
  mesh := ⟨n, n⟩
  dims := 1
  ndofs := 1
  current := ['d']
  default := (['d'], toyParams 1)
  defs _ := none
  prob := some (n, 1)
  sol := [List.replicate n 0]
  control := []
  values _ := none
  gradsZ _ := none
  gradsX _ := none
  valueName _ := none
  gradZName _ := none
  gradXName _ := none
  vals _ := none
  ops _ := none
  meshMap := none
  file := []

/-- **C96, what is false.**  The parameters are stored before the problem is created: if the creation throws because the
file is not there yet, the same call again, with the file, does nothing, and the problem is that of the file before. -/
theorem C96_failed_false : ∃ a b d : App toyF,
    initApp [kNode ['r'] ['d'] (.reinitialize true)] (toyFApp 2) = .ok () a ∧
    exec [.importValue sParameters [1], .files (0 : Nat)] a = .ok () b ∧
    (∃ c, compute ['r'] b = .err "no file" c ∧ exec [.files (5 : Nat), .compute ['r']] c = .ok () d) ∧
    d.files = (5 : Nat) ∧ d.mesh.nverts = 2 ∧ d.prob = some ((2 : Nat), (1 : ℝ)) := by
  have step : ∃ a b c : App toyF, initApp [kNode ['r'] ['d'] (.reinitialize true)] (toyFApp 2) = .ok () a ∧
      exec [.importValue sParameters [1], .files (0 : Nat)] a = .ok () b ∧ compute ['r'] b = .err "no file" c ∧
      c.ops ['r'] = some ⟨.reinitialize true, ['d'], upd (fun _ => none) ['r'] ⟨['k'], 0⟩, [1]⟩ ∧
      c.vals sParameters = some [1] ∧ c.current = ['d'] ∧ c.defs ['d'] = some ⟨toyParams ((1 : ℕ) : ℝ), false⟩ ∧
      c.mesh.nverts = 2 ∧ c.prob = some ((2 : Nat), (1 : ℝ)) :=
    ⟨_, _, _, rfl, rfl, rfl, rfl, rfl, rfl, rfl, rfl, rfl⟩
  obtain ⟨a, b, c, h1, h2, h3, h4, h5, h6, h7, h8, h9⟩ := step
  have hs := reinit_same (S := toyF) (a := { c with files := (5 : Nat) }) h4 rfl h5 (by simp) h6 h7
  refine ⟨a, b, { c with files := (5 : Nat), vals := upd c.vals sParameters [1] }, h1, h2, ⟨c, h3, ?_⟩, ?_⟩
  · simp only [exec]
    rw [bind_run (show Cmd.run (.files (5 : Nat)) c = .ok () { c with files := (5 : Nat) } from rfl),
      bind_run (show Cmd.run (.compute ['r']) _ = _ from hs)]
    rfl
  · exact ⟨rfl, h8, h9⟩

/-- The hypotheses of `C96_rounds_partial` are met by rounds with other parameters and an import between. -/
example : ∃ a b d : App toy, ∃ F : List ℝ → Nat, ∃ rs : List (List ℝ × List (Cmd toy)),
    rs = [([1], [.importParameter ['r'] ['r'] [5]])] ∧
    initApp [kNode ['r'] ['d'] (.reinitialize false)] (toyApp 2) = .ok () a ∧
    (∀ r ∈ rs, ∀ c ∈ r.2, c.plain a.ops ∧ c ≠ .compute ['r']) ∧
    exec (rounds (S := toy) F ['r'] rs) a = .ok () b ∧ exec (start (S := toy) F ['r'] [2, 0]) b = .ok () d := by
  refine ⟨_, _, _, fun v => v.length + 1, _, rfl, rfl, ?_, rfl, rfl⟩
  intro r hr c hc
  simp only [List.mem_cons, List.not_mem_nil, or_false] at hr
  subst hr
  simp only [List.mem_cons, List.not_mem_nil, or_false] at hc
  subst hc
  exact ⟨trivial, by simp⟩

end Plato.Mpmd
