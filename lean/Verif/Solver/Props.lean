import Mathlib.Tactic.NormNum
import Verif.Solver.Fill

/-!
# C102: solving with the libraries, options and stacks
-/

namespace Plato.Solver
open Finset
variable {K : Type}

section
variable [CommSemiring K]

/-- Specification: `x` solves the system of the assembled matrix. -/
def Solves (A : Crs K) (N : Nat) (x b : List K) : Prop :=
  ∀ i, i < N → ∑ j ∈ range N, A.dense i j * at0 x j = at0 b i

/-- Specification: whenever a library says that it converged, its vector has the length of the
right hand side and solves the system that it was given. -/
def Lib.Sound (lib : Lib K) (o : Opts) : Prop := ∀ M x b, (lib M x b o).2 = true →
  (lib M x b o).1.length = b.length ∧
    ∀ i, i < b.length → ∑ j ∈ range b.length, M i j * at0 (lib M x b o).1 j = at0 b i

/-- Specification: the library converges for the system of the assembled matrix. -/
def Lib.Converges (lib : Lib K) (o : Opts) (A : Crs K) (N : Nat) (x b : List K) : Prop :=
  ∀ M, (∀ r s, r < N → M r s = A.dense r s) → (lib M x b o).2 = true

/-- **C102.**  With a library that converges, a solve with Epetra returns a solution of the
assembled system. -/
theorem C102_epetra_solves_partial {A : Crs K} {nb mb : Nat} (h : A.WF nb mb) (hrc : A.rpb = A.cpb)
    (lib : Lib K) (o : Opts) (hs : lib.Sound o) (x b : List K)
    (hc : lib.Converges o A (nb * A.rpb) x b) (hx : x.length = nb * A.rpb) (hb : b.length = nb * A.rpb) :
    (epetraSolve lib nb A.rpb o A x b).Sat fun y =>
      y.length = nb * A.rpb ∧ Solves A (nb * A.rpb) y b := by
  unfold epetraSolve
  refine (C102_epetra_matrix_partial h hrc).bind ?_
  intro M hM
  obtain ⟨h1, h2⟩ := hs M x b (hc M hM)
  unfold fromVector toVector
  simp only [hx, hb, ne_eq, not_true_eq_false, if_false, Res.ok_bind]
  rw [h1, hb]
  simp only [ne_eq, not_true_eq_false, if_false]
  refine Res.Sat.ok ⟨by rw [h1, hb], ?_⟩
  intro i hi
  rw [← h2 i (by omega), hb]
  exact sum_congr rfl fun j _ => by rw [hM i j hi]

/-- **C102.**  With a library that converges and packages that exist, a solve with Tpetra returns a
solution of the assembled system. -/
theorem C102_tpetra_solves_partial {A : Crs K} {nb mb : Nat} (h : A.WF nb mb)
    (lib : Lib K) (t : Tpetra) (hs : lib.Sound t.opts)
    (hp : t.precPackage = "IFpack2" ∨ t.precPackage = "MueLu") (hq : t.solverPackage = "Belos")
    (x b : List K) (hc : lib.Converges t.opts A (nb * A.rpb) x b) (hx : x.length = nb * A.rpb) (hb : b.length = nb * A.rpb) :
    (tpetraSolve lib (nb * A.rpb) t A x b).Sat fun y =>
      y.length = nb * A.rpb ∧ Solves A (nb * A.rpb) y b := by
  unfold tpetraSolve
  refine (C102_tpetra_matrix h).bind ?_
  intro M hM
  obtain ⟨h1, h2⟩ := hs M x b (hc M hM)
  unfold fromVector toVector
  simp only [hx, hb, ne_eq, not_true_eq_false, if_false, Res.ok_bind]
  rw [if_neg (fun y => hp.elim y.1 y.2), if_neg (fun y => y hq), h1, hb]
  simp only [not_true_eq_false, if_false]
  refine Res.Sat.ok ⟨by rw [h1, hb], ?_⟩
  intro i hi
  rw [← h2 i (by omega), hb]
  exact sum_congr rfl fun j _ => by rw [hM i j hi]

/-- **C102.**  Vectors of another size than the system are rejected by both libraries. -/
theorem C102_vectors {A : Crs K} {nb mb : Nat} (h : A.WF nb mb) (hrc : A.rpb = A.cpb)
    (lib : Lib K) (t : Tpetra) (x b : List K)
    (hxb : x.length ≠ nb * A.rpb ∨ b.length ≠ nb * A.rpb) :
    (∃ e, epetraSolve lib nb A.rpb t.opts A x b = Res.err e) ∧
    (∃ e, tpetraSolve lib (nb * A.rpb) t A x b = Res.err e) := by
  obtain ⟨M, hM, -⟩ := C102_epetra_matrix_partial h hrc
  obtain ⟨M', hM', -⟩ := C102_tpetra_matrix h
  unfold epetraSolve tpetraSolve
  rw [hM, hM']
  unfold fromVector throwErr
  simp only [Res.ok_bind]
  by_cases hx : x.length = nb * A.rpb
  · have hb : b.length ≠ nb * A.rpb := hxb.elim (fun y => absurd hx y) id
    rw [if_neg (fun y => y hx), if_pos hb]
    exact ⟨⟨_, rfl⟩, ⟨_, rfl⟩⟩
  · rw [if_pos hx]
    exact ⟨⟨_, rfl⟩, ⟨_, rfl⟩⟩

/-- **C102, refuted without convergence:** for every library and system, the vector of a solve that
did not converge is returned like a solution, by both interfaces: the status does not matter. -/
theorem C102_converged_false {A : Crs K} {nb mb : Nat} (h : A.WF nb mb) (hrc : A.rpb = A.cpb)
    (sol : Mat K → List K → List K → Opts → List K) (t : Tpetra)
    (hp : t.precPackage = "IFpack2") (hq : t.solverPackage = "Belos")
    (hl : ∀ M x b o, (sol M x b o).length = b.length)
    (x b : List K) (hx : x.length = nb * A.rpb) (hb : b.length = nb * A.rpb) :
    let lib : Lib K := fun M x b o => (sol M x b o, false)
    (∃ M, epetraSolve lib nb A.rpb t.opts A x b = Res.ok (sol M x b t.opts)) ∧
    (∃ M, tpetraSolve lib (nb * A.rpb) t A x b = Res.ok (sol M x b t.opts)) := by
  obtain ⟨M, hM, -⟩ := C102_epetra_matrix_partial h hrc
  obtain ⟨M', hM', -⟩ := C102_tpetra_matrix h
  intro lib
  unfold epetraSolve tpetraSolve
  rw [hM, hM']
  unfold fromVector toVector
  simp only [hx, hb, ne_eq, not_true_eq_false, if_false, Res.ok_bind]
  have e : ∀ M, (lib M x b t.opts).1.length = nb * A.rpb := fun M => (hl M x b t.opts).trans hb
  simp only [e, hp, hq, not_true_eq_false, false_and, if_false]
  exact ⟨⟨M, rfl⟩, ⟨M', rfl⟩⟩

end

/-- **C102.**  Epetra uses the number of iterations and the tolerance of the input. -/
theorem C102_epetra_options (p : Params) (i : Nat) (r : ℚ) (h1 : p "Iterations" = some (.int i))
    (h2 : p "Tolerance" = some (.real r)) : epetraOpts p = ⟨i, r⟩ := by
  simp [epetraOpts, intOr, realOr, h1, h2]

/-- **C102.**  Without an entry "Tolerance", Tpetra uses the number of iterations of the input, or
the list of options as it stands. -/
theorem C102_tpetra_options_partial (other : Opts) (p : Params) (h0 : p "Tolerance" = none)
    (h1 : p "Solver Package" = none) :
    (∀ o, p "Solver Options" = some (.opts o) →
      (tpetraNew other p).Sat fun t => t.opts = o ∧ t.solverPackage = "Belos") ∧
    (∀ i, p "Solver Options" = none → p "Iterations" = some (.int i) →
      (tpetraNew other p).Sat fun t => t.opts = ⟨i, 1 / 10 ^ 14⟩ ∧ t.solverPackage = "Belos") := by
  have hs : (match p "Solver" with
    | some (.str s) => Res.ok s
    | _ => if strOr p "Solver Package" "Belos" = "Belos" then Res.ok "GMRES"
      else throwErr "Solver not specified in input parameter list." : Res String).Sat
      fun _ => True := by
    have : strOr p "Solver Package" "Belos" = "Belos" := by simp [strOr, h1]
    rw [if_pos this]
    split <;> exact Res.Sat.ok trivial
  have hp : strOr p "Solver Package" "Belos" = "Belos" := by simp [strOr, h1]
  refine ⟨?_, ?_⟩
  · intro o ho
    unfold tpetraNew
    refine hs.bind fun s _ => ?_
    rw [ho]
    exact Res.Sat.ok ⟨rfl, hp⟩
  · intro i hn hi
    unfold tpetraNew
    refine hs.bind fun s _ => ?_
    rw [hn]
    dsimp only
    rw [if_pos hp]
    simp only [tpetraTolerance, h0, Res.ok_bind, intOr, hi]
    exact Res.Sat.ok ⟨rfl, hp⟩

/-- **C102, refuted without the hypothesis on the tolerance:** for every input, Tpetra with its
default package either refuses the input because of its tolerance or uses the tolerance 1e-14: no
value of "Tolerance" is ever used. -/
theorem C102_tolerance_false (other : Opts) (p : Params) (h1 : p "Solver Package" = none)
    (h2 : p "Solver Options" = none) (t : Tpetra) (h : tpetraNew other p = Res.ok t) :
    t.opts.tolerance = 1 / 10 ^ 14 := by
  have hp : strOr p "Solver Package" "Belos" = "Belos" := by simp [strOr, h1]
  unfold tpetraNew at h
  simp only [hp, h2, if_true] at h
  unfold tpetraTolerance at h
  split at h
  · split at h
    · simp [throwErr] at h
    · simp only [Res.ok_bind, Res.pure_eq, Res.ok.injEq] at h
      rw [← h]
  · split at h
    · simp [throwErr] at h
    · simp only [Res.ok_bind, Res.pure_eq, Res.ok.injEq] at h
      rw [← h]

/-- **C102, refuted:** a list of options makes Tpetra ignore "Iterations" and "Tolerance" given
next to it. -/
theorem C102_ignored_false (other o : Opts) (p : Params) (h2 : p "Solver Options" = some (.opts o))
    (t : Tpetra) (h : tpetraNew other p = Res.ok t) (i : Nat) (r : ℚ) (h1 : o.iterations ≠ i)
    (h3 : o.tolerance ≠ r) (_ : p "Iterations" = some (.int i))
    (_ : p "Tolerance" = some (.real r)) : t.opts.iterations ≠ i ∧ t.opts.tolerance ≠ r := by
  unfold tpetraNew at h
  rw [h2] at h
  simp only [] at h
  split at h
  · simp only [Res.ok_bind, Res.pure_eq, Res.ok.injEq] at h
    rw [← h]; exact ⟨h1, h3⟩
  · split at h
    · simp only [Res.ok_bind, Res.pure_eq, Res.ok.injEq] at h
      rw [← h]; exact ⟨h1, h3⟩
    · simp [throwErr] at h

/-- **C102.**  A stack that is created is the requested one, or the default of the build: AmgX before
Tpetra before Epetra; a stack
that was not compiled or does not exist is refused. -/
theorem C102_stack (c : Build) (p : Params) :
    (∀ s, p "Solver Stack" = some (.str s) →
      (create c p).Sat (fun k => (s = "Epetra" ∧ k = .epetra) ∨
        (s = "Tpetra" ∧ k = .tpetra ∧ c.tpetra = true) ∨
        (s = "AmgX" ∧ k = .amgx ∧ c.amgx = true)) ∨
      ((∃ e, create c p = Res.err e) ∧ s ≠ "Epetra" ∧ (s = "Tpetra" → c.tpetra = false) ∧
        (s = "AmgX" → c.amgx = false))) ∧
    (p "Solver Stack" = none → (c.amgx = true → create c p = Res.ok .amgx) ∧
      (c.amgx = false → c.tpetra = true → create c p = Res.ok .tpetra) ∧
      (c.amgx = false → c.tpetra = false → create c p = Res.ok .epetra)) := by
  refine ⟨?_, ?_⟩
  · intro s hs
    unfold create stackName
    rw [hs]
    dsimp only
    by_cases h1 : s = "Epetra"
    · left; rw [if_pos h1]; exact Res.Sat.ok (Or.inl ⟨h1, rfl⟩)
    · rw [if_neg h1]
      by_cases h2 : s = "Tpetra"
      · rw [if_pos h2]
        cases hc : c.tpetra with
        | true => left; simp [h2]
        | false => right; subst h2; simp [throwErr]
      · rw [if_neg h2]
        by_cases h3 : s = "AmgX"
        · rw [if_pos h3]
          cases hc : c.amgx with
          | true => left; simp [h3]
          | false => right; subst h3; simp [throwErr]
        · rw [if_neg h3]
          right
          exact ⟨⟨_, rfl⟩, h1, fun x => absurd x h2, fun x => absurd x h3⟩
  · intro hn
    unfold create stackName
    rw [hn]
    dsimp only
    cases h1 : c.amgx <;> cases h2 : c.tpetra <;> simp

/-! Concrete cases: two nodes with two degrees of freedom each, three blocks, and a library that
says that it converged if its initial guess solves the system. -/

def square : Crs Int where
  rowMap := [0, 2, 3]
  cols := [0, 1, 1]
  vals := [1, 1, 0, 1, 1, 2, 3, 4, 1, 0, 1, 1]
  numRows? := some 4
  numCols? := some 4
  rpb := 2
  cpb := 2

theorem square_WF : square.WF 2 2 where
  rpb_pos := by decide
  cpb_pos := by decide
  rowMap_length := rfl
  rowMap_zero := rfl
  rowMap_mono := by decide
  rowMap_last := rfl
  cols_lt := by decide
  vals_length := rfl
  numRows_eq := rfl
  numCols_eq := rfl

def guess : Lib Int := fun M x b _ =>
  (x, decide (x.length = b.length ∧
    ∀ i, i < b.length → ∑ j ∈ range b.length, M i j * at0 x j = at0 b i))

theorem guess_sound (o : Opts) : guess.Sound o := by
  intro M x b h
  simpa [guess] using h

theorem guess_converges (o : Opts) :
    guess.Converges o square (2 * square.rpb) [1, 2, 3, 4] [14, 27, 3, 7] := by
  intro M hM
  have h : ∀ i, i < 4 → ∑ j ∈ range 4, square.dense i j * at0 [1, 2, 3, 4] j
      = at0 [14, 27, 3, 7] i := by decide
  have : (∀ i, i < 4 → ∑ j ∈ range 4, M i j * at0 ([1, 2, 3, 4] : List Int) j
      = at0 ([14, 27, 3, 7] : List Int) i) := by
    intro i hi
    rw [← h i hi]
    exact sum_congr rfl fun j _ => by rw [hM i j hi]
  simpa [guess] using this

example (o : Opts) := C102_epetra_solves_partial square_WF rfl guess o (guess_sound o)
  [1, 2, 3, 4] [14, 27, 3, 7] (guess_converges o) rfl rfl

example (o : Opts) := C102_tpetra_solves_partial square_WF guess ⟨"Belos", "GMRES", o, "MueLu"⟩
  (guess_sound o) (Or.inr rfl) rfl [1, 2, 3, 4] [14, 27, 3, 7] (guess_converges o) rfl rfl

example (o : Opts) := C102_converged_false square_WF rfl (fun _ _ b _ => b.map fun _ => 0)
  ⟨"Belos", "GMRES", o, "IFpack2"⟩ rfl rfl (fun _ _ _ _ => by simp) [1, 2, 3, 4] [14, 27, 3, 7]
  rfl rfl

/-- An input with a tolerance is accepted by Tpetra, and the tolerance is not used. -/
example (other : Opts) : ∃ t, tpetraNew other (fun k => if k = "Tolerance" then some (.real (1 / 2))
    else if k = "Iterations" then some (.int 7) else none) = Res.ok t ∧
    t.opts = ⟨7, 1 / 10 ^ 14⟩ := ⟨_, rfl, rfl⟩

/-- A tolerance given as a whole number is refused. -/
example (other : Opts) : ∃ e, tpetraNew other (fun k => if k = "Tolerance" then some (.int 1)
    else none) = Res.err e := ⟨_, rfl⟩

example (other : Opts) : ∃ t, tpetraNew other (fun k => if k = "Tolerance" then some (.real (1 / 2))
    else if k = "Iterations" then some (.int 7) else if k = "Solver Options" then
      some (.opts ⟨300, 1⟩) else none) = Res.ok t ∧ t.opts = ⟨300, 1⟩ := ⟨_, rfl, rfl⟩

end Plato.Solver
