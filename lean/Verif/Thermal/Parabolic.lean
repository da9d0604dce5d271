import Verif.Thermal.Model
import Verif.Mech.Rows

/-!
# Parabolic vector functions

For a residual that adds one row to every cell, the functions of the parabolic vector function are those of
the elliptic vector function with the other unknown held fixed.  The theorems about the gradients carry
over.
-/

namespace Plato.Thermal
open Finset Plato Plato.Mech

/-- Rows of the parabolic kind: part, cell, state, rate, control, configuration. -/
abbrev ParRow (R : Type) :=
  Nat → Nat → (Nat → R) → (Nat → R) → (Nat → R) → (Nat → Nat → R) → Nat → R

/-- `ev` adds to cell `c` of part `k` the row `row k c`, a function of the worksets of that cell, and does
nothing on the boundary. -/
structure ParRowEv {R : Type} [CommRing R] (M : FeModel) (ev : ParEvaluator R) (row : ParRow R) : Prop where
  ok : ∀ k cells s v z x r, M.part k = some cells → PartOk M k s z x → v.d0 = M.size (M.part k) →
    v.d1 = M.npc * M.ndof → r.d0 = M.size (M.part k) → r.d1 = M.npc * M.ndof → ev k s v z x r =
      .ok (addRows r cells.length fun c => row k c (s.e c) (v.e c) (z.e c) (x.e c))
  bnd : ∀ k s v z x r, M.part k = none → ev k s v z x r = .ok r
  loc : ∀ k c S S' V V' Z Z' X X', k < M.domains.length → (∀ l, l < M.npc * M.ndof → S l = S' l) →
    (∀ l, l < M.npc * M.ndof → V l = V' l) → (∀ a, a < M.npc → Z a = Z' a) →
    (∀ a i, a < M.npc → i < M.dim → X a i = X' a i) → row k c S V Z X = row k c S' V' Z' X'

section
variable {R : Type} [CommRing R] {M : FeModel} {row : ParRow R}

/-- Row with the rate fixed. -/
def rowAtRate (M : FeModel) (row : ParRow R) (V : Nat → Nat → R) (k c : Nat) (S Z : Nat → R)
    (X : Nat → Nat → R) : Nat → R := row k c S (V (gcell (M.part k) c)) Z X

/-- Row as function of the rate, with the state fixed. -/
def rowAtState (M : FeModel) (row : ParRow R) (S : Nat → Nat → R) (k c : Nat) (V Z : Nat → R)
    (X : Nat → Nat → R) : Nat → R := row k c (S (gcell (M.part k) c)) V Z X

/-- An evaluator of the elliptic kind that adds rows. -/
def rowEvaluator (M : FeModel) (row : Nat → Nat → (Nat → R) → (Nat → R) → (Nat → Nat → R) → Nat → R) :
    Evaluator R := fun k s z x r =>
  match M.part k with
  | some cells => .ok (addRows r cells.length fun c => row k c (s.e c) (z.e c) (x.e c))
  | none => .ok r

theorem rowEvaluator_row {row : Nat → Nat → (Nat → R) → (Nat → R) → (Nat → Nat → R) → Nat → R}
    (hloc : ∀ k c S S' Z Z' X X', k < M.domains.length → (∀ l, l < M.npc * M.ndof → S l = S' l) →
      (∀ a, a < M.npc → Z a = Z' a) → (∀ a i, a < M.npc → i < M.dim → X a i = X' a i) →
      row k c S Z X = row k c S' Z' X') : RowEv M (rowEvaluator M row) row := by
  refine ⟨?_, ?_, ?_⟩
  · intro k cells s z x r hp _ _ _
    unfold rowEvaluator
    rw [hp]
  · intro k s z x r hp
    unfold rowEvaluator
    rw [hp]
  · intro k c S S' Z Z' X X' hk hS hZ hX l _
    rw [hloc k c S S' Z Z' X X' hk hS hZ hX]

variable {ev : ParEvaluator R} (h : ParRowEv M ev row)
include h

theorem rowAtRate_row (V : Nat → Nat → R) : RowEv M (rowEvaluator M (rowAtRate M row V)) (rowAtRate M row V) :=
  rowEvaluator_row fun k c _ _ _ _ _ _ hk hS hZ hX => h.loc k c _ _ _ _ _ _ _ _ hk hS (fun _ _ => rfl) hZ hX

theorem rowAtState_row (S : Nat → Nat → R) : RowEv M (rowEvaluator M (rowAtState M row S)) (rowAtState M row S) :=
  rowEvaluator_row fun k c _ _ _ _ _ _ hk hV hZ hX => h.loc k c _ _ _ _ _ _ _ _ hk (fun _ _ => rfl) hV hZ hX

end

/-- Schedules of the parabolic vector function: `sch k 4` belongs to the workset of the rate. -/
structure ParSchedOk (M : FeModel) (sch : Nat → Nat → List Nat) (w : Nat) : Prop where
  toSched : SchedOk M sch w
  rate : ∀ k, k ≤ M.domains.length → IsSchedule (sch k 4) (M.size (M.part k))

/-- Schedules with state and rate exchanged. -/
def swapSched (sch : Nat → Nat → List Nat) (k j : Nat) : List Nat := if j = 0 then sch k 4 else sch k j

theorem ParSchedOk.swap {M : FeModel} {sch : Nat → Nat → List Nat} {w : Nat} (h : ParSchedOk M sch w) :
    SchedOk M (swapSched sch) w := by
  refine ⟨fun k j hk hj => ?_, fun k hk => h.toSched.asm k hk⟩
  unfold swapSched
  split_ifs
  · exact h.rate k hk
  · exact h.toSched.ws k j hk hj

theorem overDomains_congr {σ : Type} {M : FeModel} {b1 b2 : Option (List Nat) → Nat → σ → Res σ} (s : σ)
    (h : ∀ k s, k ≤ M.domains.length → b1 (M.part k) k s = b2 (M.part k) k s) :
    M.overDomains b1 s = M.overDomains b2 s := by
  have key : ∀ (b1 b2 : Nat → σ → Res σ) (n i : Nat) (s : σ), (∀ k s, i ≤ k → k < i + n → b1 k s = b2 k s) →
      forUp b1 n i s = forUp b2 n i s := by
    intro b1 b2 n
    induction n with
    | zero => intros; rfl
    | succ n ih =>
      intro i s hb
      unfold forUp
      rw [hb i s le_rfl (by omega)]
      congr 1
      funext s'
      exact ih (i + 1) s' fun k s hk hk' => hb k s (by omega) (by omega)
  unfold FeModel.overDomains forRange
  rw [key _ (fun k s => do
    let cells ← rd M.domains k
    b2 (some cells) k s) _ _ s ?_]
  · congr 1
    funext s'
    split_ifs
    · rfl
    · have := h M.domains.length s' le_rfl
      rwa [FeModel.part, if_neg (lt_irrefl _)] at this
  · intro k s _ hk
    have hk : k < M.domains.length := by omega
    have e : rd M.domains k = .ok (M.domains[k]?.getD []) := by
      rw [List.getElem?_eq_getElem hk]
      simp [rd, hk]
    simp only [e, Res.ok_bind]
    have := h k s hk.le
    rwa [FeModel.part, if_pos hk] at this

section
variable {R : Type} [CommRing R] {M : FeModel} (hM : M.Ok) {row : ParRow R} {ev : ParEvaluator R}
  (h : ParRowEv M ev row) {mkS mkV mkZ mkX : Nat → ℝ → R} {u v z x : List ℝ} (hu : u.length = M.nn * M.ndof)
  (hv : v.length = M.nn * M.ndof) (hz : z.length = M.nn) (hx : x.length = M.nn * M.dim)
  {sch : Nat → Nat → List Nat} {w : Nat} (hs : ParSchedOk M sch w) {k : Nat} (hk : k ≤ M.domains.length)
include hM h hu hv hz hx hs hk

theorem parResults_rate : parResults M mkS mkV mkZ mkX ev (M.part k) k sch u v z x =
    M.cellResults mkS mkZ mkX (rowEvaluator M (rowAtRate M row fun g l =>
      mkV l (at0 v (cellDof M.npc M.ndof M.c2n g l)))) (M.part k) k sch u z x := by
  have hd := hM.domOk k
  obtain ⟨s, es, s0, s1, s2⟩ := workset_ok (mk := mkS) (ws := ⟨M.size (M.part k), M.npc * M.ndof, fun _ _ => 0⟩)
    hM.mesh hd hu rfl rfl (hs.toSched.ws k 0 hk (by omega))
  obtain ⟨t, et, t0, t1, t2⟩ := workset_ok (mk := mkV) (ws := ⟨M.size (M.part k), M.npc * M.ndof, fun _ _ => 0⟩)
    hM.mesh hd hv rfl rfl (hs.rate k hk)
  obtain ⟨c, ez, z0, z1, z2⟩ := workset_ok (mk := mkZ) (ws := ⟨M.size (M.part k), M.npc, fun _ _ => 0⟩)
    (d := 1) hM.mesh hd (by rw [hz, Nat.mul_one]) rfl (by simp) (hs.toSched.ws k 1 hk (by omega))
  obtain ⟨g, ex, x0, x1, x2, x3⟩ := worksetConfig_ok (mk := mkX)
    (ws := ⟨M.size (M.part k), M.npc, M.dim, fun _ _ _ => 0⟩) hM.mesh hd hx rfl rfl rfl
    (hs.toSched.ws k 2 hk (by omega))
  unfold parResults FeModel.cellResults
  simp only [es, et, ez, ex, Res.ok_bind]
  by_cases hkl : k < M.domains.length
  swap
  · have hp : M.part k = none := if_neg hkl
    rw [h.bnd k _ _ _ _ _ hp]
    unfold rowEvaluator
    rw [hp]
  · have hp : M.part k = some (M.domains[k]?.getD []) := if_pos hkl
    generalize M.domains[k]?.getD [] = cells at hp
    have hsz : M.size (M.part k) = cells.length := by rw [hp]; rfl
    rw [h.ok k cells s t c g _ hp ⟨s0, s1, z0, by rw [z1, Nat.mul_one], x0, x1, x2⟩ t0 t1 rfl rfl]
    unfold rowEvaluator rowAtRate
    rw [hp]
    dsimp only
    congr 1
    simp only [addRows, V2.mk.injEq, true_and]
    funext c'
    by_cases hc : c' < cells.length
    · simp only [hc, if_true]
      congr 1
      exact h.loc k c' _ _ _ _ _ _ _ _ hkl (fun _ _ => rfl) (fun l hl => by rw [t2 c' l (hsz ▸ hc) hl, hp])
        (fun _ _ => rfl) fun _ _ _ _ => rfl
    · simp [hc]

theorem parResults_state : parResults M mkS mkV mkZ mkX ev (M.part k) k sch u v z x =
    M.cellResults mkV mkZ mkX (rowEvaluator M (rowAtState M row fun g l =>
      mkS l (at0 u (cellDof M.npc M.ndof M.c2n g l)))) (M.part k) k (swapSched sch) v z x := by
  have hd := hM.domOk k
  obtain ⟨s, es, s0, s1, s2⟩ := workset_ok (mk := mkS) (ws := ⟨M.size (M.part k), M.npc * M.ndof, fun _ _ => 0⟩)
    hM.mesh hd hu rfl rfl (hs.toSched.ws k 0 hk (by omega))
  obtain ⟨t, et, t0, t1, t2⟩ := workset_ok (mk := mkV) (ws := ⟨M.size (M.part k), M.npc * M.ndof, fun _ _ => 0⟩)
    hM.mesh hd hv rfl rfl (hs.rate k hk)
  obtain ⟨c, ez, z0, z1, z2⟩ := workset_ok (mk := mkZ) (ws := ⟨M.size (M.part k), M.npc, fun _ _ => 0⟩)
    (d := 1) hM.mesh hd (by rw [hz, Nat.mul_one]) rfl (by simp) (hs.toSched.ws k 1 hk (by omega))
  obtain ⟨g, ex, x0, x1, x2, x3⟩ := worksetConfig_ok (mk := mkX)
    (ws := ⟨M.size (M.part k), M.npc, M.dim, fun _ _ _ => 0⟩) hM.mesh hd hx rfl rfl rfl
    (hs.toSched.ws k 2 hk (by omega))
  unfold parResults FeModel.cellResults
  have e0 : swapSched sch k 0 = sch k 4 := rfl
  have e1 : swapSched sch k 1 = sch k 1 := rfl
  have e2 : swapSched sch k 2 = sch k 2 := rfl
  simp only [e0, e1, e2, es, et, ez, ex, Res.ok_bind]
  by_cases hkl : k < M.domains.length
  swap
  · have hp : M.part k = none := if_neg hkl
    rw [h.bnd k _ _ _ _ _ hp]
    unfold rowEvaluator
    rw [hp]
  · have hp : M.part k = some (M.domains[k]?.getD []) := if_pos hkl
    generalize M.domains[k]?.getD [] = cells at hp
    have hsz : M.size (M.part k) = cells.length := by rw [hp]; rfl
    rw [h.ok k cells s t c g _ hp ⟨s0, s1, z0, by rw [z1, Nat.mul_one], x0, x1, x2⟩ t0 t1 rfl rfl]
    unfold rowEvaluator rowAtState
    rw [hp]
    dsimp only
    congr 1
    simp only [addRows, V2.mk.injEq, true_and]
    funext c'
    by_cases hc : c' < cells.length
    · simp only [hc, if_true]
      congr 1
      exact h.loc k c' _ _ _ _ _ _ _ _ hkl (fun l hl => by rw [s2 c' l (hsz ▸ hc) hl, hp]) (fun _ _ => rfl)
        (fun _ _ => rfl) fun _ _ _ _ => rfl
    · simp [hc]

end

/-! ## The functions of the parabolic vector function -/

/-- A vector on a cell. -/
def cellVec {R : Type} (M : FeModel) (mk : Nat → ℝ → R) (v : List ℝ) (g l : Nat) : R :=
  mk l (at0 v (cellDof M.npc M.ndof M.c2n g l))

section
variable {M : FeModel} (hM : M.Ok) {u v z x : List ℝ} (hu : u.length = M.nn * M.ndof)
  (hv : v.length = M.nn * M.ndof) (hz : z.length = M.nn) (hx : x.length = M.nn * M.dim)
  {sch : Nat → Nat → List Nat} {w : Nat} (hs : ParSchedOk M sch w)
include hM hu hv hz hx hs

theorem parValue_rate {ev : ParEvaluator ℝ} {row : ParRow ℝ} (h : ParRowEv M ev row) :
    parValue M ev sch u v z x = M.value (rowEvaluator M (rowAtRate M row (cellVec M plainOf v))) sch u z x :=
  overDomains_congr _ fun k y hk => by rw [parResults_rate hM h hu hv hz hx hs hk]; rfl

theorem parValue_state {ev : ParEvaluator ℝ} {row : ParRow ℝ} (h : ParRowEv M ev row) :
    parValue M ev sch u v z x =
      M.value (rowEvaluator M (rowAtState M row (cellVec M plainOf u))) (swapSched sch) v z x :=
  overDomains_congr _ fun k y hk => by rw [parResults_state hM h hu hv hz hx hs hk]; rfl

variable {ev : ParEvaluator Fad} {row : ParRow Fad} (h : ParRowEv M ev row) (o : List Nat)
include h

theorem parGradientU_eq : parGradientU M ev o sch u v z x =
    M.gradientU (rowEvaluator M (rowAtRate M row (cellVec M constOf v))) o sch u z x := by
  unfold parGradientU FeModel.gradientU
  congr 1
  funext A
  exact overDomains_congr _ fun k y hk => by rw [parResults_rate hM h hu hv hz hx hs hk]; rfl

theorem parGradientV_eq : parGradientV M ev o sch u v z x =
    M.gradientU (rowEvaluator M (rowAtState M row (cellVec M constOf u))) o (swapSched sch) v z x := by
  unfold parGradientV FeModel.gradientU
  congr 1
  funext A
  exact overDomains_congr _ fun k y hk => by rw [parResults_state hM h hu hv hz hx hs hk]; rfl

theorem parGradientZ_eq : parGradientZ M ev o sch u v z x =
    M.gradientZ (rowEvaluator M (rowAtRate M row (cellVec M constOf v))) o sch u z x := by
  unfold parGradientZ FeModel.gradientZ
  congr 1
  funext A
  exact overDomains_congr _ fun k y hk => by rw [parResults_rate hM h hu hv hz hx hs hk]; rfl

theorem parGradientX_eq : parGradientX M ev o sch u v z x =
    M.gradientX (rowEvaluator M (rowAtRate M row (cellVec M constOf v))) o sch u z x := by
  unfold parGradientX FeModel.gradientX
  congr 1
  funext A
  exact overDomains_congr _ fun k y hk => by rw [parResults_rate hM h hu hv hz hx hs hk]; rfl

end

/-! ## Gradients -/

/-- The rows computed with automatic differentiation values track the rows computed with numbers. -/
def ParTracks {E : Type} [NormedAddCommGroup E] [NormedSpace ℝ E] (M : FeModel) (rowR : ParRow ℝ)
    (rowF : ParRow Fad) (good : (Nat → ℝ) → (Nat → Nat → ℝ) → Prop) (x : E) : Prop :=
  ∀ (k c N : Nat) (L : Nat → E →L[ℝ] ℝ) (SF VF ZF : Nat → Fad) (XF : Nat → Nat → Fad)
    (SR VR ZR : E → Nat → ℝ) (XR : E → Nat → Nat → ℝ), k < M.domains.length → c < M.size (M.part k) →
    (∀ l, l < M.npc * M.ndof → Tracks L N x (SF l) fun y => SR y l) →
    (∀ l, l < M.npc * M.ndof → Tracks L N x (VF l) fun y => VR y l) →
    (∀ a, a < M.npc → Tracks L N x (ZF a) fun y => ZR y a) →
    (∀ a i, a < M.npc → i < M.dim → Tracks L N x (XF a i) fun y => XR y a i) →
    good (ZR x) (XR x) →
    ∀ l, l < M.npc * M.ndof → Tracks L N x (rowF k c SF VF ZF XF l) fun y => rowR k c (SR y) (VR y) (ZR y) (XR y) l

section
variable {M : FeModel} (hM : M.Ok) {evR : ParEvaluator ℝ} {evF : ParEvaluator Fad} {rowR : ParRow ℝ}
  {rowF : ParRow Fad} (hR : ParRowEv M evR rowR) (hF : ParRowEv M evF rowF)
  {good : (Nat → ℝ) → (Nat → Nat → ℝ) → Prop} (hg : GoodLocal M good) {o : List Nat} (ho : IsSchedule o M.nn)
  {sch : Nat → Nat → List Nat}

include hR hF in
theorem tracks_rate {E : Type} [NormedAddCommGroup E] [NormedSpace ℝ E] {x : E}
    (ht : ParTracks M rowR rowF good x) (v : List ℝ) :
    EvTracks M (fun _ => rowEvaluator M (rowAtRate M rowR (cellVec M plainOf v)))
      (rowEvaluator M (rowAtRate M rowF (cellVec M constOf v))) good x :=
  RowEv.tracks (rowAtRate_row hR _) (rowAtRate_row hF _)
    fun k c N L SF ZF XF SR ZR XR hk hc hS hZ hX hgood l hl =>
      ht k c N L SF _ ZF XF SR (fun _ => cellVec M plainOf v (gcell (M.part k) c)) ZR XR hk hc hS
        (fun _ _ => Tracks.const _) hZ hX hgood l hl

include hR hF in
theorem tracks_state {E : Type} [NormedAddCommGroup E] [NormedSpace ℝ E] {x : E}
    (ht : ParTracks M rowR rowF good x) (u : List ℝ) :
    EvTracks M (fun _ => rowEvaluator M (rowAtState M rowR (cellVec M plainOf u)))
      (rowEvaluator M (rowAtState M rowF (cellVec M constOf u))) good x :=
  RowEv.tracks (rowAtState_row hR _) (rowAtState_row hF _)
    fun k c N L SF ZF XF SR ZR XR hk hc hS hZ hX hgood l hl =>
      ht k c N L _ SF ZF XF (fun _ => cellVec M plainOf u (gcell (M.part k) c)) SR ZR XR hk hc
        (fun _ _ => Tracks.const _) hS hZ hX hgood l hl

include hM hR hF hg ho

/-- `gradient_u` of the parabolic vector function is the derivative of `value` with respect to the state. -/
theorem par_gradient_u {u : Fin (M.nn * M.ndof) → ℝ} {v z x : List ℝ} (hv : v.length = M.nn * M.ndof)
    (hz : z.length = M.nn) (hx : x.length = M.nn * M.dim)
    (hgood : ∀ c, c < M.nc → good (M.cellZ z c) (M.cellX x c)) (ht : ParTracks M rowR rowF good u)
    (hs : ParSchedOk M sch (M.npc * M.ndof * (M.npc * M.ndof)))
    {schR : (Fin (M.nn * M.ndof) → ℝ) → Nat → Nat → List Nat}
    (hsR : ∀ y, ParSchedOk M (schR y) (M.npc * M.ndof)) :
    ∃ (r : (Fin (M.nn * M.ndof) → ℝ) → List ℝ) (J : Crs ℝ),
      (∀ y, parValue M evR (schR y) (List.ofFn y) v z x = .ok (r y) ∧ (r y).length = M.nn * M.ndof) ∧
      parGradientU M evF o sch (List.ofFn u) v z x = .ok J ∧ J.WF M.nn M.nn ∧
      ∀ q, q < M.nn * M.ndof →
        HasFDerivAt (fun y => at0 (r y) q) (lin (M.nn * M.ndof) fun j => J.dense q j) u := by
  obtain ⟨r, J, h1, h2, h3, h4⟩ := C43_gradient_u hM hg hz hx hgood (tracks_rate hR hF ht v) ho hs.toSched
    fun y => (hsR y).toSched
  refine ⟨r, J, fun y => ?_, ?_, h3, h4⟩
  · rw [parValue_rate hM List.length_ofFn hv hz hx (hsR y) hR]; exact h1 y
  · rw [parGradientU_eq hM List.length_ofFn hv hz hx hs hF]; exact h2

/-- `gradient_v` is the derivative of `value` with respect to the rate. -/
theorem par_gradient_v {v : Fin (M.nn * M.ndof) → ℝ} {u z x : List ℝ} (hu : u.length = M.nn * M.ndof)
    (hz : z.length = M.nn) (hx : x.length = M.nn * M.dim)
    (hgood : ∀ c, c < M.nc → good (M.cellZ z c) (M.cellX x c)) (ht : ParTracks M rowR rowF good v)
    (hs : ParSchedOk M sch (M.npc * M.ndof * (M.npc * M.ndof)))
    {schR : (Fin (M.nn * M.ndof) → ℝ) → Nat → Nat → List Nat}
    (hsR : ∀ y, ParSchedOk M (schR y) (M.npc * M.ndof)) :
    ∃ (r : (Fin (M.nn * M.ndof) → ℝ) → List ℝ) (J : Crs ℝ),
      (∀ y, parValue M evR (schR y) u (List.ofFn y) z x = .ok (r y) ∧ (r y).length = M.nn * M.ndof) ∧
      parGradientV M evF o sch u (List.ofFn v) z x = .ok J ∧ J.WF M.nn M.nn ∧
      ∀ q, q < M.nn * M.ndof →
        HasFDerivAt (fun y => at0 (r y) q) (lin (M.nn * M.ndof) fun j => J.dense q j) v := by
  obtain ⟨r, J, h1, h2, h3, h4⟩ := C43_gradient_u hM hg hz hx hgood (tracks_state hR hF ht u) ho hs.swap
    fun y => (hsR y).swap
  refine ⟨r, J, fun y => ?_, ?_, h3, h4⟩
  · rw [parValue_state hM hu List.length_ofFn hz hx (hsR y) hR]; exact h1 y
  · rw [parGradientV_eq hM hu List.length_ofFn hz hx hs hF]; exact h2

/-- `gradient_z` is the derivative of `value` with respect to the control. -/
theorem par_gradient_z {z : Fin M.nn → ℝ} {u v x : List ℝ} (hu : u.length = M.nn * M.ndof)
    (hv : v.length = M.nn * M.ndof) (hx : x.length = M.nn * M.dim)
    (hgood : ∀ c, c < M.nc → good (M.cellZ (List.ofFn z) c) (M.cellX x c)) (ht : ParTracks M rowR rowF good z)
    (hs : ParSchedOk M sch (M.npc * M.ndof * (M.npc * 1)))
    {schR : (Fin M.nn → ℝ) → Nat → Nat → List Nat} (hsR : ∀ y, ParSchedOk M (schR y) (M.npc * M.ndof)) :
    ∃ (r : (Fin M.nn → ℝ) → List ℝ) (J : Crs ℝ),
      (∀ y, parValue M evR (schR y) u v (List.ofFn y) x = .ok (r y) ∧ (r y).length = M.nn * M.ndof) ∧
      parGradientZ M evF o sch u v (List.ofFn z) x = .ok J ∧ J.WF M.nn M.nn ∧
      ∀ q, HasFDerivAt (fun y => at0 (r y) q) (lin M.nn fun j => J.dense j q) z := by
  obtain ⟨r, J, h1, h2, h3, h4⟩ := C43_gradient_z hM hg hu hx hgood (tracks_rate hR hF ht v) ho hs.toSched
    fun y => (hsR y).toSched
  refine ⟨r, J, fun y => ?_, ?_, h3, h4⟩
  · rw [parValue_rate hM hu hv List.length_ofFn hx (hsR y) hR]; exact h1 y
  · rw [parGradientZ_eq hM hu hv List.length_ofFn hx hs hF]; exact h2

/-- `gradient_x` is the derivative of `value` with respect to the node coordinates. -/
theorem par_gradient_x {x : Fin (M.nn * M.dim) → ℝ} {u v z : List ℝ} (hu : u.length = M.nn * M.ndof)
    (hv : v.length = M.nn * M.ndof) (hz : z.length = M.nn)
    (hgood : ∀ c, c < M.nc → good (M.cellZ z c) (M.cellX (List.ofFn x) c)) (ht : ParTracks M rowR rowF good x)
    (hs : ParSchedOk M sch (M.npc * M.ndof * (M.npc * M.dim)))
    {schR : (Fin (M.nn * M.dim) → ℝ) → Nat → Nat → List Nat}
    (hsR : ∀ y, ParSchedOk M (schR y) (M.npc * M.ndof)) :
    ∃ (r : (Fin (M.nn * M.dim) → ℝ) → List ℝ) (J : Crs ℝ),
      (∀ y, parValue M evR (schR y) u v z (List.ofFn y) = .ok (r y) ∧ (r y).length = M.nn * M.ndof) ∧
      parGradientX M evF o sch u v z (List.ofFn x) = .ok J ∧ J.WF M.nn M.nn ∧
      ∀ q, HasFDerivAt (fun y => at0 (r y) q) (lin (M.nn * M.dim) fun j => J.dense j q) x := by
  obtain ⟨r, J, h1, h2, h3, h4⟩ := C43_gradient_x hM hg hu hz hgood (tracks_rate hR hF ht v) ho hs.toSched
    fun y => (hsR y).toSched
  refine ⟨r, J, fun y => ?_, ?_, h3, h4⟩
  · rw [parValue_rate hM hu hv hz List.length_ofFn (hsR y) hR]; exact h1 y
  · rw [parGradientX_eq hM hu hv hz List.length_ofFn hs hF]; exact h2

end

end Plato.Thermal
