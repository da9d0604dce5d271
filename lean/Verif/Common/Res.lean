/-!
# Outcomes of modelled C++ functions, views and loops

A modelled function returns `Res α`: a value, a thrown exception (`THROWERR` in
`/repo/src/AnalyzeMacros.hpp`), or undefined behaviour (`ub`), e.g. an access outside an
allocation.  `Kokkos::View<T*>` is modelled by `List T`; every element access is checked.
-/

namespace Plato

universe u v

/-- Outcome of a modelled C++ function. -/
inductive Res (α : Type u) where
  /-- normal return -/
  | ok (a : α)
  /-- an exception is thrown (`THROWERR`, `std::runtime_error`, ...) -/
  | err (msg : String)
  /-- undefined behaviour (out of bounds access, dereferenced `end()`, ...) -/
  | ub
  deriving DecidableEq, Repr

namespace Res

variable {α : Type u} {β : Type v}

/-- Sequencing: an exception or undefined behaviour stops the computation. -/
def bind (r : Res α) (f : α → Res β) : Res β :=
  match r with
  | ok a => f a
  | err m => err m
  | ub => ub

instance : Monad Res where
  pure := Res.ok
  bind := Res.bind

@[simp] theorem pure_eq (a : α) : (pure a : Res α) = ok a := rfl
@[simp] theorem ok_bind {α β : Type u} (a : α) (f : α → Res β) : (ok a >>= f) = f a := rfl
@[simp] theorem err_bind {α β : Type u} (m : String) (f : α → Res β) :
    ((err m : Res α) >>= f) = err m := rfl
@[simp] theorem ub_bind {α β : Type u} (f : α → Res β) : ((ub : Res α) >>= f) = ub := rfl

instance : LawfulMonad Res := LawfulMonad.mk'
  (id_map := by intro α x; cases x <;> rfl)
  (pure_bind := by intros; rfl)
  (bind_assoc := by intro α β γ x f g; cases x <;> rfl)

/-- `r.Sat P`: the computation returns normally and its result satisfies `P`. -/
def Sat (r : Res α) (P : α → Prop) : Prop := ∃ a, r = ok a ∧ P a

theorem Sat.ok {P : α → Prop} {a : α} (h : P a) : (Res.ok a).Sat P := ⟨a, rfl, h⟩

@[simp] theorem sat_ok {P : α → Prop} {a : α} : (Res.ok a).Sat P ↔ P a :=
  ⟨fun ⟨_, h, hp⟩ => by cases h; exact hp, Sat.ok⟩

@[simp] theorem sat_pure {P : α → Prop} {a : α} : (pure a : Res α).Sat P ↔ P a := sat_ok

@[simp] theorem sat_err {P : α → Prop} {m : String} : ¬ (Res.err m : Res α).Sat P := by
  rintro ⟨_, h, _⟩; cases h

@[simp] theorem sat_ub {P : α → Prop} : ¬ (Res.ub : Res α).Sat P := by
  rintro ⟨_, h, _⟩; cases h

theorem Sat.mono {r : Res α} {P Q : α → Prop} (h : r.Sat P) (hpq : ∀ a, P a → Q a) :
    r.Sat Q := by
  obtain ⟨a, ha, hp⟩ := h; exact ⟨a, ha, hpq a hp⟩

theorem Sat.bind {α β : Type u} {r : Res α} {f : α → Res β} {P : α → Prop} {Q : β → Prop}
    (h : r.Sat P) (hf : ∀ a, P a → (f a).Sat Q) : (r >>= f).Sat Q := by
  obtain ⟨a, ha, hp⟩ := h; subst ha; exact hf a hp

theorem Sat.eq_ok {r : Res α} {a : α} (h : r.Sat (· = a)) : r = Res.ok a := by
  obtain ⟨b, hb, h⟩ := h; subst h; exact hb

end Res

/-- `THROWERR(msg)`: /repo/src/AnalyzeMacros.hpp. -/
def throwErr {α : Type u} (m : String) : Res α := Res.err m

/-- Checked read of a view entry: `v(i)`. -/
def rd {α : Type u} (v : List α) (i : Nat) : Res α :=
  match v[i]? with
  | some a => Res.ok a
  | none => Res.ub

/-- Checked write of a view entry: `v(i) = a`. -/
def wr {α : Type u} (v : List α) (i : Nat) (a : α) : Res (List α) :=
  if i < v.length then Res.ok (v.set i a) else Res.ub

theorem rd_eq {α : Type u} {v : List α} {i : Nat} (h : i < v.length) : rd v i = Res.ok v[i] := by
  simp [rd, h]

theorem rd_ub {α : Type u} {v : List α} {i : Nat} (h : v.length ≤ i) : rd v i = Res.ub := by
  simp [rd, h]

theorem wr_eq {α : Type u} {v : List α} {i : Nat} {a : α} (h : i < v.length) :
    wr v i a = Res.ok (v.set i a) := by simp [wr, h]

theorem wr_ub {α : Type u} {v : List α} {i : Nat} {a : α} (h : v.length ≤ i) :
    wr v i a = Res.ub := by simp [wr, Nat.not_lt.2 h]

/-- In an ascending sequence that starts at or below `k` and ends above it, `k` lies between two
consecutive members. -/
theorem locate (f : Nat → Nat) (m k : Nat) (h0 : f 0 ≤ k) (hm : k < f m) :
    ∃ i, i < m ∧ f i ≤ k ∧ k < f (i + 1) := by
  induction m with
  | zero => omega
  | succ m ih =>
    by_cases h : k < f m
    · obtain ⟨i, hi, h1, h2⟩ := ih h
      exact ⟨i, by omega, h1, h2⟩
    · exact ⟨m, by omega, by omega, hm⟩

/-- Loop body repeated `n` times starting at index `i`. -/
def forUp {σ : Type u} (body : Nat → σ → Res σ) : Nat → Nat → σ → Res σ
  | 0, _, s => Res.ok s
  | n + 1, i, s => body i s >>= forUp body n (i + 1)

/-- `for (auto i = lo; i < hi; i++) body`. -/
def forRange {σ : Type u} (lo hi : Nat) (s : σ) (body : Nat → σ → Res σ) : Res σ :=
  forUp body (hi - lo) lo s

/-- `Kokkos::parallel_for` over the indices listed in `order`: the schedule is a parameter.
Theorems quantify over every `order` that is a permutation of the iteration range. -/
def parFor {σ : Type u} : List Nat → σ → (Nat → σ → Res σ) → Res σ
  | [], s, _ => Res.ok s
  | i :: is, s, body => body i s >>= fun s' => parFor is s' body

theorem forUp_inv {σ : Type u} {body : Nat → σ → Res σ} (P : Nat → σ → Prop) :
    ∀ (n i : Nat) (s : σ), P i s →
      (∀ j s, i ≤ j → j < i + n → P j s → (body j s).Sat (P (j + 1))) →
      (forUp body n i s).Sat (P (i + n)) := by
  intro n
  induction n with
  | zero => intro i s h _; simpa [forUp] using h
  | succ n ih =>
    intro i s h hb
    refine Res.Sat.bind (hb i s (Nat.le_refl _) (by omega) h) ?_
    intro s' hs'
    have := ih (i + 1) s' hs' (fun j s hj hj' hp => hb j s (by omega) (by omega) hp)
    rwa [Nat.add_assoc, Nat.add_comm 1 n] at this

/-- Invariant rule for a counted loop. -/
theorem forRange_inv {σ : Type u} {body : Nat → σ → Res σ} (P : Nat → σ → Prop)
    {lo hi : Nat} {s : σ} (hle : lo ≤ hi) (h0 : P lo s)
    (hb : ∀ j s, lo ≤ j → j < hi → P j s → (body j s).Sat (P (j + 1))) :
    (forRange lo hi s body).Sat (P hi) := by
  have := forUp_inv P (hi - lo) lo s h0 (fun j s h1 h2 hp => hb j s h1 (by omega) hp)
  rwa [Nat.add_sub_cancel' hle] at this

theorem forRange_succ {σ : Type u} {body : Nat → σ → Res σ} {lo hi : Nat} {s : σ} (h : lo < hi) :
    forRange lo hi s body = (body lo s >>= fun s' => forRange (lo + 1) hi s' body) := by
  unfold forRange
  have : hi - lo = (hi - (lo + 1)) + 1 := by omega
  rw [this]; rfl

@[simp] theorem forRange_self {σ : Type u} {body : Nat → σ → Res σ} {lo : Nat} {s : σ} :
    forRange lo lo s body = Res.ok s := by simp [forRange, forUp]

/-- Invariant rule for a parallel loop: `P done s` where `done` are the finished indices. -/
theorem parFor_inv {σ : Type u} {body : Nat → σ → Res σ} (P : List Nat → σ → Prop) :
    ∀ (order done : List Nat) (s : σ), P done s →
      (∀ (d : List Nat) (i : Nat) (rest : List Nat) s, done ++ order = d ++ i :: rest →
        P d s → (body i s).Sat (P (d ++ [i]))) →
      (parFor order s body).Sat (P (done ++ order)) := by
  intro order
  induction order with
  | nil => intro done s h _; simpa [parFor] using h
  | cons i is ih =>
    intro done s h hb
    refine Res.Sat.bind (hb done i is s rfl h) ?_
    intro s' hs'
    have := ih (done ++ [i]) s' hs'
      (fun d j rest s heq hp => hb d j rest s (by simpa using heq) hp)
    simpa using this

end Plato
