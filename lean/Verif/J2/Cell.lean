import Verif.J2.Model
import Verif.Mech.Rows
import Verif.Mech.GradForm
import Mathlib.Tactic.IntervalCases

/-!
# Closed forms of the functions of J2 plasticity
-/

namespace Plato.J2
open Plato Plato.Mech Finset

variable {R : Type} [CommRing R]

/-- A sequence of assignments to a row. -/
theorem foldlM_row {α : Type} {y : V2 R} {c : Nat} {body : V2 R → α → Res (V2 R)} (i : α → Nat)
    (v : α → (Nat → R) → R) : ∀ (L : List α) (f : Nat → R),
      (∀ a ∈ L, ∀ f, body (y.row c f) a = .ok (y.row c fun t => if t = i a then v a f else f t)) →
      L.foldlM body (y.row c f) =
        .ok (y.row c (L.foldl (fun f a t => if t = i a then v a f else f t) f))
  | [], f, _ => rfl
  | a :: L, f, h => by
    rw [List.foldlM_cons, h a (by simp), Res.ok_bind, List.foldl_cons]
    exact foldlM_row i v L _ fun b hb => h b (by simp [hb])

/-! ## Forms -/

/-- Normal components. -/
def isNormal (d t : Nat) : Bool := if d = 2 then decide (t ≠ 2) else decide (t < 3)

section Forms
variable (P : J2 R)

/-- Total strain of a cell. -/
def J2.total [Div R] (U : Nat → R) (X : Nat → Nat → R) (t : Nat) : R :=
  if t < numVoigt P.d then voigtStrain P.d (fun n i => U (n * P.ndof + i)) (gradForm P.d X) t else 0

/-- Scaled temperature of a cell. -/
def J2.temp (U : Nat → R) : R := (∑ n ∈ range (P.d + 1), U (n * P.ndof + P.d) * at0 P.basis n) * P.tscale

/-- Thermal strain of a cell. -/
def J2.therm (U : Nat → R) : R := if P.thermal then P.alpha * (P.temp U - P.tref) else 0

/-- Elastic strain from the total one. -/
def J2.elasticOf (E U C : Nat → R) (t : Nat) : R :=
  E t - C (2 + t) - if isNormal P.d t then P.therm U else 0

/-- Mean normal component. -/
def third [Div R] (d : Nat) (E : Nat → R) : R := if d = 2 then (E 0 + E 1 + E 3) / 3 else (E 0 + E 1 + E 2) / 3

/-- Deviatoric stress. -/
def devForm [Div R] (d : Nat) (mu : R) (E : Nat → R) (t : Nat) : R :=
  if isNormal d t then 2 * mu * (E t - third d E) else mu * E t

/-- Stress minus backstress. -/
def etaForm (d : Nat) (S C : Nat → R) (t : Nat) : R := S t - C (2 + stressTerms d + t)

/-- Squared norm of a stress. -/
def sqForm (d : Nat) (S : Nat → R) : R :=
  ∑ t ∈ range (stressTerms d), if isNormal d t then S t * S t else 2 * (S t * S t)

variable [Div R]

/-- Stress minus backstress of a cell. -/
def J2.eta (U C Z : Nat → R) (X : Nat → Nat → R) : Nat → R :=
  etaForm P.d (devForm P.d (P.penE (meanDensity (P.d + 1) Z) * P.shear) (P.elasticOf (P.total U X) U C)) C

/-- Its norm. -/
def J2.norm (sqrt : R → R) (U C Z : Nat → R) (X : Nat → Nat → R) : R := sqrt (sqForm P.d (P.eta U C Z X))

/-- Its direction. -/
def J2.dir (sqrt : R → R) (U C Z : Nat → R) (X : Nat → Nat → R) (t : Nat) : R :=
  P.eta U C Z X t / P.norm sqrt U C Z X

/-- Local residual of a cell. -/
def J2.evalForm (sqrt : R → R) (plastic : Bool) (U C Cp Z : Nat → R) (X : Nat → Nat → R) (i : Nat) : R :=
  if plastic then
    if i = 0 then C 0 - Cp 0 - C 1
    else if i = 1 then P.s32 * P.norm sqrt U C Z X -
      (P.penP (meanDensity (P.d + 1) Z) * P.yield0 + P.penP (meanDensity (P.d + 1) Z) * P.hardIso * C 0)
    else if i < 2 + stressTerms P.d then C i - Cp i -
      if isNormal P.d (i - 2) then P.s32 * C 1 * P.dir sqrt U C Z X (i - 2)
      else 2 * P.s32 * C 1 * P.dir sqrt U C Z X (i - 2)
    else C i - Cp i - P.s23 * C 1 * (P.penP (meanDensity (P.d + 1) Z) * P.hardKin) *
      P.dir sqrt U C Z X (i - 2 - stressTerms P.d)
  else if i = 1 then C 1 else C i - Cp i

/-- Yield function at the trial state. -/
def J2.trial (sqrt : R → R) (U Cp Z : Nat → R) (X : Nat → Nat → R) : R :=
  P.s32 * P.norm sqrt U Cp Z X -
    (P.penP (meanDensity (P.d + 1) Z) * P.yield0 + P.penP (meanDensity (P.d + 1) Z) * P.hardIso * Cp 0)

/-- Increment of the multiplier in a plastic step. -/
def J2.incr (sqrt : R → R) (U Cp Z : Nat → R) (X : Nat → Nat → R) : R :=
  P.trial sqrt U Cp Z X / (3 * (P.penE (meanDensity (P.d + 1) Z) * P.shear) +
    P.penP (meanDensity (P.d + 1) Z) * P.hardIso + P.penP (meanDensity (P.d + 1) Z) * P.hardKin)

/-- Local state of a cell after the update. -/
def J2.updForm (sqrt : R → R) (plastic : Bool) (U Cp Z : Nat → R) (X : Nat → Nat → R) (i : Nat) : R :=
  if plastic then
    if i = 0 then Cp 0 + P.incr sqrt U Cp Z X
    else if i = 1 then P.incr sqrt U Cp Z X
    else if i < 2 + stressTerms P.d then Cp i +
      if isNormal P.d (i - 2) then P.incr sqrt U Cp Z X * P.s32 * P.dir sqrt U Cp Z X (i - 2)
      else 2 * (P.incr sqrt U Cp Z X * P.s32) * P.dir sqrt U Cp Z X (i - 2)
    else Cp i + P.incr sqrt U Cp Z X * P.s23 * (P.penP (meanDensity (P.d + 1) Z) * P.hardKin) *
      P.dir sqrt U Cp Z X (i - 2 - stressTerms P.d)
  else if i = 1 then 0 else Cp i

end Forms

/-! ## Functors -/

section Functors
variable {d c : Nat}

theorem stressTerms_eq (hd : d = 2 ∨ d = 3) : 2 + stressTerms d + stressTerms d = localDofs d := by
  rcases hd with rfl | rfl <;> rfl

theorem numVoigt_le (hd : d = 2 ∨ d = 3) : numVoigt d ≤ stressTerms d := by
  rcases hd with rfl | rfl <;> decide

/-- `strain_ok` for a view with further columns. -/
theorem strain_le [Div R] {ndof : Nat} {s u : V2 R} {g : V3 R} (hd : d = 2 ∨ d = 3) (hs : c < s.d0) (hs1 : numVoigt d ≤ s.d1)
    (hu : c < u.d0) (hu1 : (d + 1) * ndof ≤ u.d1) (hg : c < g.d0) (hg1 : g.d1 = d + 1) (hg2 : g.d2 = d)
    (hdn : d ≤ ndof) :
    strain d ndof c s u g = .ok (s.row c fun t => if t < numVoigt d then
      (if t < d then 0 else s.e c t) + voigtStrain d (nodal ndof u c) (g.e c) t else s.e c t) := by
  have hN := fun t k (ht : t < numVoigt d) hk f => strainNormal_ok (s := s) (t := t) (k := k) (d := d) (ndof := ndof)
    hs (by omega) hu hu1 hg hg1 hg2 hdn hk f
  have hS := fun t i j (ht : t < numVoigt d) hi hj f => strainShear_ok (s := s) (t := t) (i := i) (j := j) (d := d)
    (ndof := ndof) hs (by omega) hu hu1 hg hg1 hg2 hdn hi hj f
  unfold strain
  conv_lhs => rw [← V2.row_self s c]
  rcases hd with rfl | rfl
  all_goals
    simp only [numVoigt, forDown, forRange, forUp, Nat.reduceAdd, Nat.reduceSub, Res.pure_eq, if_true,
      reduceIte, Nat.reduceEqDiff, OfNat.one_ne_ofNat, zero_add, tsub_zero] at hN hS ⊢
    simp (disch := decide) only [hN, hS, Res.ok_bind]
    congr 2
    funext t
    rcases Nat.lt_or_ge t 6 with ht | ht
    · interval_cases t <;> simp [voigtStrain, voigtPair]
    · have : t ≠ 0 ∧ t ≠ 1 ∧ t ≠ 2 ∧ t ≠ 3 ∧ t ≠ 4 ∧ t ≠ 5 ∧ ¬ t < 1 ∧ ¬ t < 3 ∧ ¬ t < 6 := by omega
      simp [this]

/-- Cases of a component. -/
macro "rowcases" t:ident "[" L:Lean.Parser.Tactic.simpLemma,* "]" : tactic =>
  `(tactic| (
    rcases Nat.lt_or_ge $t 14 with h | h
    · interval_cases $t <;> simp [$L,*]
    · have h0 : $t ≠ 0 := by omega
      have h1 : $t ≠ 1 := by omega
      have h2 : $t ≠ 2 := by omega
      have h3 : $t ≠ 3 := by omega
      have h4 : $t ≠ 4 := by omega
      have h5 : $t ≠ 5 := by omega
      have h6 : $t ≠ 6 := by omega
      have h7 : $t ≠ 7 := by omega
      have h8 : $t ≠ 8 := by omega
      have h9 : $t ≠ 9 := by omega
      have h10 : $t ≠ 10 := by omega
      have h11 : $t ≠ 11 := by omega
      have h12 : $t ≠ 12 := by omega
      have h13 : $t ≠ 13 := by omega
      have h14 : ¬ $t < 4 := by omega
      have h15 : ¬ $t < 6 := by omega
      have h16 : ¬ $t < 10 := by omega
      have h17 : ¬ $t < 14 := by omega
      have h18 : ¬ $t < 8 := by omega
      have h19 : ¬ $t < 2 := by omega
      simp only [h0, h1, h2, h3, h4, h5, h6, h7, h8, h9, h10, h11, h12, h13, h14, h15, h16, h17, h18, h19, $L,*,
        List.foldl_cons, List.foldl_nil, if_false, if_true, reduceIte, Nat.reduceEqDiff,
        Nat.reduceAdd, false_and, and_false, ite_self]))

theorem elasticTable_ok (hd : d = 2 ∨ d = 3) {locl total e : V2 R} (he : c < e.d0)
    (he1 : e.d1 = stressTerms d) (ht : c < total.d0) (ht1 : total.d1 = stressTerms d) (hl : c < locl.d0)
    (hl1 : locl.d1 = localDofs d) :
    (elasticTable d).foldlM (fun e (i : Nat × Nat) => do
      let a ← vrd2 total c i.1
      let b ← vrd2 locl c i.2
      vwr2 e c i.1 (a - b)) e = .ok (e.row c fun t => if t < stressTerms d then
        total.e c t - locl.e c (2 + t) else e.e c t) := by
  have hb : ∀ a ∈ elasticTable d, a.1 < stressTerms d ∧ a.2 < localDofs d := by
    rcases hd with rfl | rfl <;> decide
  conv_lhs => rw [← V2.row_self e c]
  rw [foldlM_row (fun a => a.1) (fun a _ => total.e c a.1 - locl.e c a.2)]
  · congr 2
    funext t
    rcases hd with rfl | rfl
    · rowcases t [elasticTable, stressTerms]
    · rowcases t [elasticTable, stressTerms]
  · intro a ha f
    have := hb a ha
    rw [vrd2_ok ht (by omega), Res.ok_bind, vrd2_ok hl (by omega), Res.ok_bind, vwr2_row he (by omega)]

theorem thermalTable_ok (hd : d = 2 ∨ d = 3) {e : V2 R} (he : c < e.d0) (he1 : e.d1 = stressTerms d) (th : R) :
    (thermalTable d).foldlM (fun e (i : Nat) => do
      let a ← vrd2 e c i
      vwr2 e c i (a - th)) e = .ok (e.row c fun t => if t < stressTerms d then
        e.e c t - (if isNormal d t then th else 0) else e.e c t) := by
  have hb : ∀ a ∈ thermalTable d, a < stressTerms d := by
    rcases hd with rfl | rfl <;> decide
  conv_lhs => rw [← V2.row_self e c]
  rw [foldlM_row (fun a => a) (fun a f => f a - th)]
  · congr 2
    funext t
    rcases hd with rfl | rfl
    · rowcases t [thermalTable, stressTerms, isNormal]
    · rowcases t [thermalTable, stressTerms, isNormal]
  · intro a ha f
    have := hb a ha
    rw [vrd2_row he (by omega), Res.ok_bind, vwr2_row he (by omega)]

theorem elasticStrain_ok {P : J2 R} (hd : P.d = 2 ∨ P.d = 3) (hB : P.basis.length = P.d + 1)
    {global locl total e : V2 R} (he : c < e.d0)
    (he1 : e.d1 = stressTerms P.d) (ht : c < total.d0) (ht1 : total.d1 = stressTerms P.d) (hl : c < locl.d0)
    (hl1 : locl.d1 = localDofs P.d) (hg : c < global.d0) (hg1 : (P.d + 1) * P.ndof ≤ global.d1) :
    elasticStrain P c global locl total e = .ok (e.row c fun t => if t < stressTerms P.d then
      P.elasticOf (total.e c) (global.e c) (locl.e c) t else e.e c t) := by
  unfold elasticStrain
  rw [elasticTable_ok hd he he1 ht ht1 hl hl1, Res.ok_bind]
  unfold J2.elasticOf J2.therm J2.temp
  by_cases h : P.thermal = true
  · have hn : P.ndof = P.d + 2 := if_pos h
    have hT : forRange 0 (P.d + 1) (0 : R) (fun n T => do
        let s ← vrd2 global c (n * P.ndof + P.d)
        let b ← rd P.basis n
        pure (T + s * b)) = .ok (∑ n ∈ range (P.d + 1), global.e c (n * P.ndof + P.d) * at0 P.basis n) := by
      have := forRange_eq (n := P.d + 1) (body := fun n (T : R) => do
        let s ← vrd2 global c (n * P.ndof + P.d)
        let b ← rd P.basis n
        pure (T + s * b)) (fun k => ∑ n ∈ range k, global.e c (n * P.ndof + P.d) * at0 P.basis n) (by
          intro k hk
          have := dof_lt (d := P.d) (ndof := P.ndof) (i := P.d) hk (by omega)
          rw [vrd2_ok hg (by omega), Res.ok_bind, rd_at0 (by omega), Res.ok_bind, Res.pure_eq, sum_range_succ])
      rwa [sum_range_zero] at this
    rw [if_pos h, hT, Res.ok_bind]
    dsimp only
    rw [thermalTable_ok (e := V2.row e c _) hd he he1, V2.row_row]
    congr 2
    funext t
    simp only [V2.row, if_true, h]
    by_cases ht : t < stressTerms P.d <;> simp [ht]
  · rw [if_neg h, Res.pure_eq]
    congr 2
    funext t
    simp [h]

theorem devStress_ok [Div R] (hd : d = 2 ∨ d = 3) (mu : R) {e s : V2 R} (he : c < e.d0) (he1 : e.d1 = stressTerms d)
    (hs : c < s.d0) (hs1 : s.d1 = stressTerms d) :
    devStress d c mu e s = .ok (s.row c fun t => if t < stressTerms d then devForm d mu (e.e c) t else s.e c t) := by
  have hb : ∀ a ∈ devTable d, a.1 < stressTerms d := by
    rcases hd with rfl | rfl <;> decide
  have ht : (traceTable d).1 < stressTerms d ∧ (traceTable d).2.1 < stressTerms d ∧
      (traceTable d).2.2 < stressTerms d := by rcases hd with rfl | rfl <;> decide
  unfold devStress
  rw [vrd2_ok he (by omega), Res.ok_bind, vrd2_ok he (by omega), Res.ok_bind, vrd2_ok he (by omega), Res.ok_bind]
  conv_lhs => rw [← V2.row_self s c]
  dsimp only
  rw [foldlM_row (fun a => a.1) (fun a _ => if a.2 then 2 * mu * (e.e c a.1 - (e.e c (traceTable d).1 +
    e.e c (traceTable d).2.1 + e.e c (traceTable d).2.2) / 3) else mu * e.e c a.1)]
  · congr 2
    funext t
    rcases hd with rfl | rfl
    · rowcases t [devTable, stressTerms, isNormal, devForm, third, traceTable]
    · rowcases t [devTable, stressTerms, isNormal, devForm, third, traceTable]
  · intro a ha f
    have := hb a ha
    rw [vrd2_ok he (by omega), Res.ok_bind, vwr2_row hs (by omega)]

theorem foldlM_acc {α : Type} {body : R → α → Res R} (v : α → R) : ∀ (L : List α) (s : R),
    (∀ a ∈ L, ∀ s, body s a = .ok (s + v a)) → L.foldlM body s = .ok (L.foldl (fun s a => s + v a) s)
  | [], s, _ => rfl
  | a :: L, s, h => by
    rw [List.foldlM_cons, h a (by simp), Res.ok_bind, List.foldl_cons]
    exact foldlM_acc v L _ fun b hb => h b (by simp [hb])

theorem normalized_ok [Div R] (sqrt : R → R) (hd : d = 2 ∨ d = 3) {dev locl normal : V2 R} {norm : List R}
    (he : c < dev.d0) (he1 : dev.d1 = stressTerms d) (hl : c < locl.d0) (hl1 : locl.d1 = localDofs d)
    (hn : c < normal.d0) (hn1 : normal.d1 = stressTerms d) (hm : c < norm.length) :
    normalized sqrt d c dev locl normal norm = .ok (normal.row c fun t => if t < stressTerms d then
      etaForm d (dev.e c) (locl.e c) t / sqrt (sqForm d (etaForm d (dev.e c) (locl.e c))) else normal.e c t,
      norm.set c (sqrt (sqForm d (etaForm d (dev.e c) (locl.e c))))) := by
  have hb : ∀ a ∈ etaTable d, a.1 < stressTerms d ∧ a.2 < localDofs d := by
    rcases hd with rfl | rfl <;> decide
  have hb2 : ∀ a ∈ normTable d, a.1 < stressTerms d := by
    rcases hd with rfl | rfl <;> decide
  have hb3 : ∀ a ∈ unitTable d, a < stressTerms d := by
    rcases hd with rfl | rfl <;> decide
  have h1 : (etaTable d).foldlM (fun y (i : Nat × Nat) => do
      let a ← vrd2 dev c i.1
      let b ← vrd2 locl c i.2
      vwr2 y c i.1 (a - b)) normal = .ok (normal.row c fun t => if t < stressTerms d then
        etaForm d (dev.e c) (locl.e c) t else normal.e c t) := by
    conv_lhs => rw [← V2.row_self normal c]
    rw [foldlM_row (fun a => a.1) (fun a _ => dev.e c a.1 - locl.e c a.2)]
    · congr 2
      funext t
      rcases hd with rfl | rfl
      · rowcases t [etaTable, stressTerms, etaForm]
      · rowcases t [etaTable, stressTerms, etaForm]
    · intro a ha f
      have := hb a ha
      rw [vrd2_ok he (by omega), Res.ok_bind, vrd2_ok hl (by omega), Res.ok_bind, vwr2_row hn (by omega)]
  unfold normalized
  rw [h1, Res.ok_bind, foldlM_acc (fun a : Nat × Bool => if a.2 then 2 * (etaForm d (dev.e c) (locl.e c) a.1 *
    etaForm d (dev.e c) (locl.e c) a.1) else etaForm d (dev.e c) (locl.e c) a.1 * etaForm d (dev.e c) (locl.e c) a.1)
    (L := normTable d)]
  · rw [Res.ok_bind, show (normTable d).foldl (fun s (a : Nat × Bool) => s + if a.2 then
        2 * (etaForm d (dev.e c) (locl.e c) a.1 * etaForm d (dev.e c) (locl.e c) a.1) else
        etaForm d (dev.e c) (locl.e c) a.1 * etaForm d (dev.e c) (locl.e c) a.1) 0 =
        sqForm d (etaForm d (dev.e c) (locl.e c)) by
      rcases hd with rfl | rfl
      · simp [normTable, sqForm, stressTerms, sum_range_succ, isNormal]; ring
      · simp [normTable, sqForm, stressTerms, sum_range_succ, isNormal],
      wr_eq hm, Res.ok_bind]
    rw [foldlM_row (fun a => a) (fun a f => f a / sqrt (sqForm d (etaForm d (dev.e c) (locl.e c))))]
    · rw [Res.ok_bind, Res.pure_eq]
      congr 3
      funext t
      rcases hd with rfl | rfl
      · rowcases t [unitTable, stressTerms]
      · rowcases t [unitTable, stressTerms]
    · intro a ha f
      have := hb3 a ha
      rw [vrd2_row hn (by omega), Res.ok_bind, rd_at0 (by rwa [List.length_set]), Res.ok_bind, at0_set hm,
        if_pos rfl, vwr2_row hn (by omega)]
  · intro a ha s
    have := hb2 a ha
    rw [vrd2_row hn (by omega), Res.ok_bind, if_pos this, Res.pure_eq]

theorem updateElasticStep_ok (hd : d = 2 ∨ d = 3) {prev locl : V2 R} (hp : c < prev.d0)
    (hp1 : prev.d1 = localDofs d) (hl : c < locl.d0) (hl1 : locl.d1 = localDofs d) :
    updateElasticStep d c prev locl = .ok (locl.row c fun i => if i < localDofs d then
      (if i < 2 then locl.e c i else prev.e c i) else locl.e c i) := by
  have hb : ∀ a ∈ elasticStepTable d, a < localDofs d := by
    rcases hd with rfl | rfl <;> decide
  unfold updateElasticStep
  conv_lhs => rw [← V2.row_self locl c]
  rw [foldlM_row (fun a => a) (fun a _ => prev.e c a)]
  · congr 2
    funext t
    rcases hd with rfl | rfl
    · rowcases t [elasticStepTable, localDofs]
    · rowcases t [elasticStepTable, localDofs]
  · intro a ha f
    have := hb a ha
    rw [vrd2_ok hp (by omega), Res.ok_bind, vwr2_row hl (by omega)]

theorem updatePlasticStep_ok {P : J2 R} (hd : P.d = 2 ∨ P.d = 3) {prev normal locl : V2 R} (H : R)
    (hp : c < prev.d0) (hp1 : prev.d1 = localDofs P.d) (hn : c < normal.d0) (hn1 : normal.d1 = stressTerms P.d)
    (hl : c < locl.d0) (hl1 : locl.d1 = localDofs P.d) :
    updatePlasticStep P c prev normal H locl = .ok (locl.row c fun i => if i < localDofs P.d then
      (if i < 2 then locl.e c i else if i < 2 + stressTerms P.d then prev.e c i +
        (if isNormal P.d (i - 2) then locl.e c 1 * P.s32 * normal.e c (i - 2)
          else 2 * (locl.e c 1 * P.s32) * normal.e c (i - 2))
        else prev.e c i + locl.e c 1 * P.s23 * H * normal.e c (i - 2 - stressTerms P.d)) else locl.e c i) := by
  have hb : ∀ a ∈ plasticStepTable P.d, a.1 < localDofs P.d ∧ a.2.1 < stressTerms P.d := by
    rcases hd with h | h <;> rw [h] <;> decide
  have hb2 : ∀ a ∈ backstressStepTable P.d, a.1 < localDofs P.d ∧ a.2 < stressTerms P.d := by
    rcases hd with h | h <;> rw [h] <;> decide
  have h1 : 1 < localDofs P.d := by rcases hd with h | h <;> rw [h] <;> decide
  unfold updatePlasticStep
  rw [vrd2_ok hl (by omega), Res.ok_bind]
  conv_lhs => rw [← V2.row_self locl c]
  dsimp only
  rw [show (locl.row c (locl.e c)).e = locl.e by rw [V2.row_self],
    foldlM_row (fun a => a.1) (fun a _ => prev.e c a.1 + if a.2.2 then 2 * (locl.e c 1 * P.s32) *
    normal.e c a.2.1 else locl.e c 1 * P.s32 * normal.e c a.2.1)]
  · rw [Res.ok_bind, vrd2_row hl (by omega), Res.ok_bind]
    rw [show (plasticStepTable P.d).foldl (fun (f : Nat → R) (a : Nat × Nat × Bool) t => if t = a.1 then
      prev.e c a.1 + (if a.2.2 then 2 * (locl.e c 1 * P.s32) * normal.e c a.2.1 else
        locl.e c 1 * P.s32 * normal.e c a.2.1) else f t) (locl.e c) 1 = locl.e c 1 by
      rcases hd with h | h <;> rw [h] <;> simp [plasticStepTable]]
    rw [foldlM_row (fun a => a.1) (fun a _ => prev.e c a.1 + locl.e c 1 * P.s23 * H * normal.e c a.2)]
    · congr 2
      funext t
      rcases hd with h | h <;> rw [h]
      · rowcases t [plasticStepTable, backstressStepTable, localDofs, stressTerms, isNormal]
      · rowcases t [plasticStepTable, backstressStepTable, localDofs, stressTerms, isNormal]
    · intro a ha f
      have := hb2 a ha
      rw [vrd2_ok hp (by omega), Res.ok_bind, vrd2_ok hn (by omega), Res.ok_bind, vwr2_row hl (by omega)]
  · intro a ha f
    have := hb a ha
    rw [vrd2_ok hp (by omega), Res.ok_bind, vrd2_ok hn (by omega), Res.ok_bind, vwr2_row hl (by omega)]

theorem fillElastic_ok (hd : d = 2 ∨ d = 3) {locl prev out : V2 R} (hl : c < locl.d0)
    (hl1 : locl.d1 = localDofs d) (hp : c < prev.d0) (hp1 : prev.d1 = localDofs d) (ho : c < out.d0)
    (ho1 : out.d1 = localDofs d) :
    (do
      let out ← fillElasticStep (strainResidualTable d) c locl prev out
      fillElasticStep (backstressResidualTable d) c locl prev out) =
      .ok (out.row c fun i => if i < localDofs d then (if i < 2 then out.e c i else locl.e c i - prev.e c i)
        else out.e c i) := by
  have hb : ∀ a ∈ strainResidualTable d, a < localDofs d := by
    rcases hd with rfl | rfl <;> decide
  have hb2 : ∀ a ∈ backstressResidualTable d, a < localDofs d := by
    rcases hd with rfl | rfl <;> decide
  unfold fillElasticStep
  conv_lhs => rw [← V2.row_self out c]
  rw [foldlM_row (fun a => a) (fun a _ => locl.e c a - prev.e c a), Res.ok_bind,
    foldlM_row (fun a => a) (fun a _ => locl.e c a - prev.e c a)]
  · congr 2
    funext t
    rcases hd with rfl | rfl
    · rowcases t [strainResidualTable, backstressResidualTable, localDofs]
    · rowcases t [strainResidualTable, backstressResidualTable, localDofs]
  · intro a ha f
    have := hb2 a ha
    rw [vrd2_ok hl (by omega), Res.ok_bind, vrd2_ok hp (by omega), Res.ok_bind, vwr2_row ho (by omega)]
  · intro a ha f
    have := hb a ha
    rw [vrd2_ok hl (by omega), Res.ok_bind, vrd2_ok hp (by omega), Res.ok_bind, vwr2_row ho (by omega)]

theorem fillElastic_bind {β : Type} (hd : d = 2 ∨ d = 3) {locl prev out : V2 R} (hl : c < locl.d0)
    (hl1 : locl.d1 = localDofs d) (hp : c < prev.d0) (hp1 : prev.d1 = localDofs d) (ho : c < out.d0)
    (ho1 : out.d1 = localDofs d) (k : V2 R → Res β) :
    (do
      let out ← fillElasticStep (strainResidualTable d) c locl prev out
      let out ← fillElasticStep (backstressResidualTable d) c locl prev out
      k out) = k (out.row c fun i => if i < localDofs d then (if i < 2 then out.e c i else locl.e c i - prev.e c i)
        else out.e c i) := by
  rw [← bind_assoc, fillElastic_ok hd hl hl1 hp hp1 ho ho1, Res.ok_bind]

theorem fillPlastic_ok {P : J2 R} (hd : P.d = 2 ∨ P.d = 3) {locl prev normal out : V2 R} (H : R) (hl : c < locl.d0)
    (hl1 : locl.d1 = localDofs P.d) (hp : c < prev.d0) (hp1 : prev.d1 = localDofs P.d) (hn : c < normal.d0)
    (hn1 : normal.d1 = stressTerms P.d) (ho : c < out.d0) (ho1 : out.d1 = localDofs P.d) :
    (do
      let out ← fillStrainPlasticStep P c locl prev normal out
      fillBackstressPlasticStep P c H locl prev normal out) =
      .ok (out.row c fun i => if i < localDofs P.d then (if i < 2 then out.e c i else
        if i < 2 + stressTerms P.d then locl.e c i - prev.e c i -
          (if isNormal P.d (i - 2) then P.s32 * locl.e c 1 * normal.e c (i - 2)
            else 2 * P.s32 * locl.e c 1 * normal.e c (i - 2))
        else locl.e c i - prev.e c i - P.s23 * locl.e c 1 * H * normal.e c (i - 2 - stressTerms P.d))
        else out.e c i) := by
  have hb : ∀ a ∈ strainResidualPlasticTable P.d, a.1 < localDofs P.d ∧ a.2.1 < stressTerms P.d := by
    rcases hd with h | h <;> rw [h] <;> decide
  have hb2 : ∀ a ∈ backstressResidualPlasticTable P.d, a.1 < localDofs P.d ∧ a.2 < stressTerms P.d := by
    rcases hd with h | h <;> rw [h] <;> decide
  have h1 : 1 < localDofs P.d := by rcases hd with h | h <;> rw [h] <;> decide
  unfold fillStrainPlasticStep fillBackstressPlasticStep
  conv_lhs => rw [← V2.row_self out c]
  rw [foldlM_row (fun a => a.1) (fun a _ => locl.e c a.1 - prev.e c a.1 -
      if a.2.2 then 2 * P.s32 * locl.e c 1 * normal.e c a.2.1 else P.s32 * locl.e c 1 * normal.e c a.2.1), Res.ok_bind,
    foldlM_row (fun a => a.1) (fun a _ => locl.e c a.1 - prev.e c a.1 - P.s23 * locl.e c 1 * H * normal.e c a.2)]
  · congr 2
    funext t
    rcases hd with h | h <;> rw [h]
    · rowcases t [strainResidualPlasticTable, backstressResidualPlasticTable, localDofs, stressTerms, isNormal]
    · rowcases t [strainResidualPlasticTable, backstressResidualPlasticTable, localDofs, stressTerms, isNormal]
  · intro a ha f
    have := hb2 a ha
    rw [vrd2_ok hl (by omega), Res.ok_bind, vrd2_ok hp (by omega), Res.ok_bind, vrd2_ok hl (by omega), Res.ok_bind,
      vrd2_ok hn (by omega), Res.ok_bind, vwr2_row ho (by omega)]
  · intro a ha f
    have := hb a ha
    rw [vrd2_ok hl (by omega), Res.ok_bind, vrd2_ok hp (by omega), Res.ok_bind, vrd2_ok hl (by omega), Res.ok_bind,
      vrd2_ok hn (by omega), Res.ok_bind, vwr2_row ho (by omega)]

theorem fillPlastic_bind {β : Type} {P : J2 R} (hd : P.d = 2 ∨ P.d = 3) {locl prev normal out : V2 R} (H : R)
    (hl : c < locl.d0) (hl1 : locl.d1 = localDofs P.d) (hp : c < prev.d0) (hp1 : prev.d1 = localDofs P.d)
    (hn : c < normal.d0) (hn1 : normal.d1 = stressTerms P.d) (ho : c < out.d0) (ho1 : out.d1 = localDofs P.d)
    (k : V2 R → Res β) :
    (do
      let out ← fillStrainPlasticStep P c locl prev normal out
      let out ← fillBackstressPlasticStep P c H locl prev normal out
      k out) = k (out.row c fun i => if i < localDofs P.d then (if i < 2 then out.e c i else
        if i < 2 + stressTerms P.d then locl.e c i - prev.e c i -
          (if isNormal P.d (i - 2) then P.s32 * locl.e c 1 * normal.e c (i - 2)
            else 2 * P.s32 * locl.e c 1 * normal.e c (i - 2))
        else locl.e c i - prev.e c i - P.s23 * locl.e c 1 * H * normal.e c (i - 2 - stressTerms P.d))
        else out.e c i) := by
  rw [← bind_assoc, fillPlastic_ok hd H hl hl1 hp hp1 hn hn1 ho ho1, Res.ok_bind]

end Functors
end Plato.J2
