import Verif.Dyn.Model
import Verif.Thermal.Parabolic

/-!
# Hyperbolic vector functions

For a residual that adds one row to every cell, the functions of the hyperbolic vector function are those of
the parabolic vector function with velocity or acceleration held fixed.  The theorems about the gradients
carry over.
-/

namespace Plato.Dyn
open Finset Plato Plato.Mech Plato.Thermal

/-- Rows of the hyperbolic kind: part, cell, state, velocity, acceleration, control, configuration. -/
abbrev HypRow (R : Type) :=
  Nat → Nat → (Nat → R) → (Nat → R) → (Nat → R) → (Nat → R) → (Nat → Nat → R) → Nat → R

/-- `ev` adds to cell `c` of part `k` the row `row k c`, a function of the worksets of that cell, and does
nothing on the boundary. -/
structure HypRowEv {R : Type} [CommRing R] (M : FeModel) (ev : HypEvaluator R) (row : HypRow R) : Prop where
  ok : ∀ k cells s v a z x r, M.part k = some cells → PartOk M k s z x → v.d0 = M.size (M.part k) →
    v.d1 = M.npc * M.ndof → a.d0 = M.size (M.part k) → a.d1 = M.npc * M.ndof → r.d0 = M.size (M.part k) →
    r.d1 = M.npc * M.ndof → ev k s v a z x r =
      .ok (addRows r cells.length fun c => row k c (s.e c) (v.e c) (a.e c) (z.e c) (x.e c))
  bnd : ∀ k s v a z x r, M.part k = none → ev k s v a z x r = .ok r
  loc : ∀ k c S S' V V' A A' Z Z' X X', k < M.domains.length → (∀ l, l < M.npc * M.ndof → S l = S' l) →
    (∀ l, l < M.npc * M.ndof → V l = V' l) → (∀ l, l < M.npc * M.ndof → A l = A' l) →
    (∀ a, a < M.npc → Z a = Z' a) → (∀ a i, a < M.npc → i < M.dim → X a i = X' a i) →
    row k c S V A Z X = row k c S' V' A' Z' X'

section
variable {R : Type} [CommRing R] {M : FeModel} {row : HypRow R}

/-- Row with the acceleration fixed. -/
def rowAtAcc (M : FeModel) (row : HypRow R) (A : Nat → Nat → R) : ParRow R := fun k c S V Z X =>
  row k c S V (A (gcell (M.part k) c)) Z X

/-- Row as function of the acceleration, with the velocity fixed. -/
def rowAtVel (M : FeModel) (row : HypRow R) (V : Nat → Nat → R) : ParRow R := fun k c S A Z X =>
  row k c S (V (gcell (M.part k) c)) A Z X

/-- An evaluator of the parabolic kind that adds rows. -/
def parRowEvaluator (M : FeModel) (row : ParRow R) : ParEvaluator R := fun k s v z x r =>
  match M.part k with
  | some cells => .ok (addRows r cells.length fun c => row k c (s.e c) (v.e c) (z.e c) (x.e c))
  | none => .ok r

theorem parRowEvaluator_row {row : ParRow R}
    (hloc : ∀ k c S S' V V' Z Z' X X', k < M.domains.length → (∀ l, l < M.npc * M.ndof → S l = S' l) →
      (∀ l, l < M.npc * M.ndof → V l = V' l) → (∀ a, a < M.npc → Z a = Z' a) →
      (∀ a i, a < M.npc → i < M.dim → X a i = X' a i) → row k c S V Z X = row k c S' V' Z' X') :
    ParRowEv M (parRowEvaluator M row) row := by
  refine ⟨?_, ?_, hloc⟩
  · intro k cells s v z x r hp _ _ _ _ _
    unfold parRowEvaluator
    rw [hp]
  · intro k s v z x r hp
    unfold parRowEvaluator
    rw [hp]

variable {ev : HypEvaluator R} (h : HypRowEv M ev row)
include h

theorem rowAtAcc_row (A : Nat → Nat → R) : ParRowEv M (parRowEvaluator M (rowAtAcc M row A)) (rowAtAcc M row A) :=
  parRowEvaluator_row fun k c _ _ _ _ _ _ _ _ hk hS hV hZ hX =>
    h.loc k c _ _ _ _ _ _ _ _ _ _ hk hS hV (fun _ _ => rfl) hZ hX

theorem rowAtVel_row (V : Nat → Nat → R) : ParRowEv M (parRowEvaluator M (rowAtVel M row V)) (rowAtVel M row V) :=
  parRowEvaluator_row fun k c _ _ _ _ _ _ _ _ hk hS hA hZ hX =>
    h.loc k c _ _ _ _ _ _ _ _ _ _ hk hS (fun _ _ => rfl) hA hZ hX

end

/-- Schedules of the hyperbolic vector function: `sch k 4` and `sch k 5` belong to the worksets of velocity
and acceleration. -/
structure HypSchedOk (M : FeModel) (sch : Nat → Nat → List Nat) (w : Nat) : Prop where
  toPar : ParSchedOk M sch w
  acc : ∀ k, k ≤ M.domains.length → IsSchedule (sch k 5) (M.size (M.part k))

/-- Schedules with the acceleration in place of the velocity. -/
def accSched (sch : Nat → Nat → List Nat) (k j : Nat) : List Nat := if j = 4 then sch k 5 else sch k j

theorem HypSchedOk.toAcc {M : FeModel} {sch : Nat → Nat → List Nat} {w : Nat} (h : HypSchedOk M sch w) :
    ParSchedOk M (accSched sch) w := by
  refine ⟨⟨fun k j hk hj => ?_, fun k hk => h.toPar.toSched.asm k hk⟩, fun k hk => h.acc k hk⟩
  unfold accSched
  rw [if_neg (by omega)]
  exact h.toPar.toSched.ws k j hk hj

section
variable {R : Type} [CommRing R] {M : FeModel} (hM : M.Ok) {row : HypRow R} {ev : HypEvaluator R}
  (h : HypRowEv M ev row) {mkS mkV mkA mkZ mkX : Nat → ℝ → R} {u v a z x : List ℝ} (hu : u.length = M.nn * M.ndof)
  (hv : v.length = M.nn * M.ndof) (ha : a.length = M.nn * M.ndof) (hz : z.length = M.nn)
  (hx : x.length = M.nn * M.dim)
  {sch : Nat → Nat → List Nat} {w : Nat} (hs : HypSchedOk M sch w) {k : Nat} (hk : k ≤ M.domains.length)
include hM h hu hv ha hz hx hs hk

theorem hypResults_acc : hypResults M mkS mkV mkA mkZ mkX ev (M.part k) k sch u v a z x =
    parResults M mkS mkV mkZ mkX (parRowEvaluator M (rowAtAcc M row (cellVec M mkA a))) (M.part k) k sch u v z x := by
  have hd := hM.domOk k
  obtain ⟨s, es, s0, s1, s2⟩ := workset_ok (mk := mkS) (ws := ⟨M.size (M.part k), M.npc * M.ndof, fun _ _ => 0⟩)
    hM.mesh hd hu rfl rfl (hs.toPar.toSched.ws k 0 hk (by omega))
  obtain ⟨t, et, t0, t1, t2⟩ := workset_ok (mk := mkV) (ws := ⟨M.size (M.part k), M.npc * M.ndof, fun _ _ => 0⟩)
    hM.mesh hd hv rfl rfl (hs.toPar.rate k hk)
  obtain ⟨b, eb, b0, b1, b2⟩ := workset_ok (mk := mkA) (ws := ⟨M.size (M.part k), M.npc * M.ndof, fun _ _ => 0⟩)
    hM.mesh hd ha rfl rfl (hs.acc k hk)
  obtain ⟨c, ez, z0, z1, z2⟩ := workset_ok (mk := mkZ) (ws := ⟨M.size (M.part k), M.npc, fun _ _ => 0⟩)
    (d := 1) hM.mesh hd (by rw [hz, Nat.mul_one]) rfl (by simp) (hs.toPar.toSched.ws k 1 hk (by omega))
  obtain ⟨g, ex, x0, x1, x2, x3⟩ := worksetConfig_ok (mk := mkX)
    (ws := ⟨M.size (M.part k), M.npc, M.dim, fun _ _ _ => 0⟩) hM.mesh hd hx rfl rfl rfl
    (hs.toPar.toSched.ws k 2 hk (by omega))
  unfold hypResults parResults
  simp only [es, et, eb, ez, ex, Res.ok_bind]
  by_cases hkl : k < M.domains.length
  swap
  · have hp : M.part k = none := if_neg hkl
    rw [h.bnd k _ _ _ _ _ _ hp]
    unfold parRowEvaluator
    rw [hp]
  · have hp : M.part k = some (M.domains[k]?.getD []) := if_pos hkl
    generalize M.domains[k]?.getD [] = cells at hp
    have hsz : M.size (M.part k) = cells.length := by rw [hp]; rfl
    rw [h.ok k cells s t b c g _ hp ⟨s0, s1, z0, by rw [z1, Nat.mul_one], x0, x1, x2⟩ t0 t1 b0 b1 rfl rfl]
    unfold parRowEvaluator rowAtAcc
    rw [hp]
    dsimp only
    congr 1
    simp only [addRows, V2.mk.injEq, true_and]
    funext c'
    by_cases hc : c' < cells.length
    · simp only [hc, if_true]
      congr 1
      exact h.loc k c' _ _ _ _ _ _ _ _ _ _ hkl (fun _ _ => rfl) (fun _ _ => rfl)
        (fun l hl => by rw [b2 c' l (hsz ▸ hc) hl, hp]; rfl) (fun _ _ => rfl) fun _ _ _ _ => rfl
    · simp [hc]

theorem hypResults_vel : hypResults M mkS mkV mkA mkZ mkX ev (M.part k) k sch u v a z x =
    parResults M mkS mkA mkZ mkX (parRowEvaluator M (rowAtVel M row (cellVec M mkV v))) (M.part k) k
      (accSched sch) u a z x := by
  have hd := hM.domOk k
  obtain ⟨s, es, s0, s1, s2⟩ := workset_ok (mk := mkS) (ws := ⟨M.size (M.part k), M.npc * M.ndof, fun _ _ => 0⟩)
    hM.mesh hd hu rfl rfl (hs.toPar.toSched.ws k 0 hk (by omega))
  obtain ⟨t, et, t0, t1, t2⟩ := workset_ok (mk := mkV) (ws := ⟨M.size (M.part k), M.npc * M.ndof, fun _ _ => 0⟩)
    hM.mesh hd hv rfl rfl (hs.toPar.rate k hk)
  obtain ⟨b, eb, b0, b1, b2⟩ := workset_ok (mk := mkA) (ws := ⟨M.size (M.part k), M.npc * M.ndof, fun _ _ => 0⟩)
    hM.mesh hd ha rfl rfl (hs.acc k hk)
  obtain ⟨c, ez, z0, z1, z2⟩ := workset_ok (mk := mkZ) (ws := ⟨M.size (M.part k), M.npc, fun _ _ => 0⟩)
    (d := 1) hM.mesh hd (by rw [hz, Nat.mul_one]) rfl (by simp) (hs.toPar.toSched.ws k 1 hk (by omega))
  obtain ⟨g, ex, x0, x1, x2, x3⟩ := worksetConfig_ok (mk := mkX)
    (ws := ⟨M.size (M.part k), M.npc, M.dim, fun _ _ _ => 0⟩) hM.mesh hd hx rfl rfl rfl
    (hs.toPar.toSched.ws k 2 hk (by omega))
  unfold hypResults parResults
  have e0 : accSched sch k 0 = sch k 0 := rfl
  have e4 : accSched sch k 4 = sch k 5 := rfl
  have e1 : accSched sch k 1 = sch k 1 := rfl
  have e2 : accSched sch k 2 = sch k 2 := rfl
  simp only [e0, e4, e1, e2, es, et, eb, ez, ex, Res.ok_bind]
  by_cases hkl : k < M.domains.length
  swap
  · have hp : M.part k = none := if_neg hkl
    rw [h.bnd k _ _ _ _ _ _ hp]
    unfold parRowEvaluator
    rw [hp]
  · have hp : M.part k = some (M.domains[k]?.getD []) := if_pos hkl
    generalize M.domains[k]?.getD [] = cells at hp
    have hsz : M.size (M.part k) = cells.length := by rw [hp]; rfl
    rw [h.ok k cells s t b c g _ hp ⟨s0, s1, z0, by rw [z1, Nat.mul_one], x0, x1, x2⟩ t0 t1 b0 b1 rfl rfl]
    unfold parRowEvaluator rowAtVel
    rw [hp]
    dsimp only
    congr 1
    simp only [addRows, V2.mk.injEq, true_and]
    funext c'
    by_cases hc : c' < cells.length
    · simp only [hc, if_true]
      congr 1
      exact h.loc k c' _ _ _ _ _ _ _ _ _ _ hkl (fun _ _ => rfl)
        (fun l hl => by rw [t2 c' l (hsz ▸ hc) hl, hp]; rfl) (fun _ _ => rfl) (fun _ _ => rfl) fun _ _ _ _ => rfl
    · simp [hc]

end

/-! ## The functions of the hyperbolic vector function -/

section
variable {M : FeModel} (hM : M.Ok) {u v a z x : List ℝ} (hu : u.length = M.nn * M.ndof)
  (hv : v.length = M.nn * M.ndof) (ha : a.length = M.nn * M.ndof) (hz : z.length = M.nn)
  (hx : x.length = M.nn * M.dim) {sch : Nat → Nat → List Nat} {w : Nat} (hs : HypSchedOk M sch w)
include hM hu hv ha hz hx hs

theorem hypValue_acc {ev : HypEvaluator ℝ} {row : HypRow ℝ} (h : HypRowEv M ev row) :
    hypValue M ev sch u v a z x =
      parValue M (parRowEvaluator M (rowAtAcc M row (cellVec M plainOf a))) sch u v z x :=
  overDomains_congr _ fun k y hk => by rw [hypResults_acc hM h hu hv ha hz hx hs hk]

theorem hypValue_vel {ev : HypEvaluator ℝ} {row : HypRow ℝ} (h : HypRowEv M ev row) :
    hypValue M ev sch u v a z x =
      parValue M (parRowEvaluator M (rowAtVel M row (cellVec M plainOf v))) (accSched sch) u a z x :=
  overDomains_congr _ fun k y hk => by rw [hypResults_vel hM h hu hv ha hz hx hs hk]; rfl

variable {ev : HypEvaluator Fad} {row : HypRow Fad} (h : HypRowEv M ev row) (o : List Nat)
include h

theorem hypGradientU_eq : hypGradientU M ev o sch u v a z x =
    parGradientU M (parRowEvaluator M (rowAtAcc M row (cellVec M constOf a))) o sch u v z x := by
  unfold hypGradientU parGradientU
  congr 1
  funext A
  exact overDomains_congr _ fun k y hk => by rw [hypResults_acc hM h hu hv ha hz hx hs hk]

theorem hypGradientV_eq : hypGradientV M ev o sch u v a z x =
    parGradientV M (parRowEvaluator M (rowAtAcc M row (cellVec M constOf a))) o sch u v z x := by
  unfold hypGradientV parGradientV
  congr 1
  funext A
  exact overDomains_congr _ fun k y hk => by rw [hypResults_acc hM h hu hv ha hz hx hs hk]

theorem hypGradientA_eq : hypGradientA M ev o sch u v a z x =
    parGradientV M (parRowEvaluator M (rowAtVel M row (cellVec M constOf v))) o (accSched sch) u a z x := by
  unfold hypGradientA parGradientV
  congr 1
  funext A
  exact overDomains_congr _ fun k y hk => by rw [hypResults_vel hM h hu hv ha hz hx hs hk]; rfl

theorem hypGradientZ_eq : hypGradientZ M ev o sch u v a z x =
    parGradientZ M (parRowEvaluator M (rowAtAcc M row (cellVec M constOf a))) o sch u v z x := by
  unfold hypGradientZ parGradientZ
  congr 1
  funext A
  exact overDomains_congr _ fun k y hk => by rw [hypResults_acc hM h hu hv ha hz hx hs hk]

theorem hypGradientX_eq : hypGradientX M ev o sch u v a z x =
    parGradientX M (parRowEvaluator M (rowAtAcc M row (cellVec M constOf a))) o sch u v z x := by
  unfold hypGradientX parGradientX
  congr 1
  funext A
  exact overDomains_congr _ fun k y hk => by rw [hypResults_acc hM h hu hv ha hz hx hs hk]

end

/-! ## Gradients -/

/-- The rows computed with automatic differentiation values track the rows computed with numbers. -/
def HypTracks {E : Type} [NormedAddCommGroup E] [NormedSpace ℝ E] (M : FeModel) (rowR : HypRow ℝ)
    (rowF : HypRow Fad) (good : (Nat → ℝ) → (Nat → Nat → ℝ) → Prop) (x : E) : Prop :=
  ∀ (k c N : Nat) (L : Nat → E →L[ℝ] ℝ) (SF VF AF ZF : Nat → Fad) (XF : Nat → Nat → Fad)
    (SR VR AR ZR : E → Nat → ℝ) (XR : E → Nat → Nat → ℝ), k < M.domains.length → c < M.size (M.part k) →
    (∀ l, l < M.npc * M.ndof → Tracks L N x (SF l) fun y => SR y l) →
    (∀ l, l < M.npc * M.ndof → Tracks L N x (VF l) fun y => VR y l) →
    (∀ l, l < M.npc * M.ndof → Tracks L N x (AF l) fun y => AR y l) →
    (∀ a, a < M.npc → Tracks L N x (ZF a) fun y => ZR y a) →
    (∀ a i, a < M.npc → i < M.dim → Tracks L N x (XF a i) fun y => XR y a i) →
    good (ZR x) (XR x) →
    ∀ l, l < M.npc * M.ndof → Tracks L N x (rowF k c SF VF AF ZF XF l)
      fun y => rowR k c (SR y) (VR y) (AR y) (ZR y) (XR y) l

section
variable {M : FeModel} {rowR : HypRow ℝ} {rowF : HypRow Fad} {good : (Nat → ℝ) → (Nat → Nat → ℝ) → Prop}

theorem tracks_acc {E : Type} [NormedAddCommGroup E] [NormedSpace ℝ E] {x : E}
    (ht : HypTracks M rowR rowF good x) (a : List ℝ) :
    ParTracks M (rowAtAcc M rowR (cellVec M plainOf a)) (rowAtAcc M rowF (cellVec M constOf a)) good x :=
  fun k c N L SF VF ZF XF SR VR ZR XR hk hc hS hV hZ hX hgood l hl =>
    ht k c N L SF VF _ ZF XF SR VR (fun _ => cellVec M plainOf a (gcell (M.part k) c)) ZR XR hk hc hS hV
      (fun _ _ => Tracks.const _) hZ hX hgood l hl

theorem tracks_vel {E : Type} [NormedAddCommGroup E] [NormedSpace ℝ E] {x : E}
    (ht : HypTracks M rowR rowF good x) (v : List ℝ) :
    ParTracks M (rowAtVel M rowR (cellVec M plainOf v)) (rowAtVel M rowF (cellVec M constOf v)) good x :=
  fun k c N L SF AF ZF XF SR AR ZR XR hk hc hS hA hZ hX hgood l hl =>
    ht k c N L SF _ AF ZF XF SR (fun _ => cellVec M plainOf v (gcell (M.part k) c)) AR ZR XR hk hc hS
      (fun _ _ => Tracks.const _) hA hZ hX hgood l hl

variable (hM : M.Ok) {evR : HypEvaluator ℝ} {evF : HypEvaluator Fad} (hR : HypRowEv M evR rowR)
  (hF : HypRowEv M evF rowF) (hg : GoodLocal M good) {o : List Nat} (ho : IsSchedule o M.nn)
  {sch : Nat → Nat → List Nat}
include hM hR hF hg ho

/-- `gradient_u` is the derivative of `value` with respect to the displacement. -/
theorem hyp_gradient_u {u : Fin (M.nn * M.ndof) → ℝ} {v a z x : List ℝ} (hv : v.length = M.nn * M.ndof)
    (ha : a.length = M.nn * M.ndof) (hz : z.length = M.nn) (hx : x.length = M.nn * M.dim)
    (hgood : ∀ c, c < M.nc → good (M.cellZ z c) (M.cellX x c)) (ht : HypTracks M rowR rowF good u)
    (hs : HypSchedOk M sch (M.npc * M.ndof * (M.npc * M.ndof)))
    {schR : (Fin (M.nn * M.ndof) → ℝ) → Nat → Nat → List Nat}
    (hsR : ∀ y, HypSchedOk M (schR y) (M.npc * M.ndof)) :
    ∃ (r : (Fin (M.nn * M.ndof) → ℝ) → List ℝ) (J : Crs ℝ),
      (∀ y, hypValue M evR (schR y) (List.ofFn y) v a z x = .ok (r y) ∧ (r y).length = M.nn * M.ndof) ∧
      hypGradientU M evF o sch (List.ofFn u) v a z x = .ok J ∧ J.WF M.nn M.nn ∧
      ∀ q, q < M.nn * M.ndof →
        HasFDerivAt (fun y => at0 (r y) q) (lin (M.nn * M.ndof) fun j => J.dense q j) u := by
  obtain ⟨r, J, h1, h2, h3, h4⟩ := par_gradient_u hM (rowAtAcc_row hR _) (rowAtAcc_row hF _) hg ho hv hz hx hgood
    (tracks_acc ht a) hs.toPar fun y => (hsR y).toPar
  refine ⟨r, J, fun y => ?_, ?_, h3, h4⟩
  · rw [hypValue_acc hM List.length_ofFn hv ha hz hx (hsR y) hR]; exact h1 y
  · rw [hypGradientU_eq hM List.length_ofFn hv ha hz hx hs hF]; exact h2

/-- `gradient_v` is the derivative of `value` with respect to the velocity. -/
theorem hyp_gradient_v {v : Fin (M.nn * M.ndof) → ℝ} {u a z x : List ℝ} (hu : u.length = M.nn * M.ndof)
    (ha : a.length = M.nn * M.ndof) (hz : z.length = M.nn) (hx : x.length = M.nn * M.dim)
    (hgood : ∀ c, c < M.nc → good (M.cellZ z c) (M.cellX x c)) (ht : HypTracks M rowR rowF good v)
    (hs : HypSchedOk M sch (M.npc * M.ndof * (M.npc * M.ndof)))
    {schR : (Fin (M.nn * M.ndof) → ℝ) → Nat → Nat → List Nat}
    (hsR : ∀ y, HypSchedOk M (schR y) (M.npc * M.ndof)) :
    ∃ (r : (Fin (M.nn * M.ndof) → ℝ) → List ℝ) (J : Crs ℝ),
      (∀ y, hypValue M evR (schR y) u (List.ofFn y) a z x = .ok (r y) ∧ (r y).length = M.nn * M.ndof) ∧
      hypGradientV M evF o sch u (List.ofFn v) a z x = .ok J ∧ J.WF M.nn M.nn ∧
      ∀ q, q < M.nn * M.ndof →
        HasFDerivAt (fun y => at0 (r y) q) (lin (M.nn * M.ndof) fun j => J.dense q j) v := by
  obtain ⟨r, J, h1, h2, h3, h4⟩ := par_gradient_v hM (rowAtAcc_row hR _) (rowAtAcc_row hF _) hg ho hu hz hx hgood
    (tracks_acc ht a) hs.toPar fun y => (hsR y).toPar
  refine ⟨r, J, fun y => ?_, ?_, h3, h4⟩
  · rw [hypValue_acc hM hu List.length_ofFn ha hz hx (hsR y) hR]; exact h1 y
  · rw [hypGradientV_eq hM hu List.length_ofFn ha hz hx hs hF]; exact h2

/-- `gradient_a` is the derivative of `value` with respect to the acceleration. -/
theorem hyp_gradient_a {a : Fin (M.nn * M.ndof) → ℝ} {u v z x : List ℝ} (hu : u.length = M.nn * M.ndof)
    (hv : v.length = M.nn * M.ndof) (hz : z.length = M.nn) (hx : x.length = M.nn * M.dim)
    (hgood : ∀ c, c < M.nc → good (M.cellZ z c) (M.cellX x c)) (ht : HypTracks M rowR rowF good a)
    (hs : HypSchedOk M sch (M.npc * M.ndof * (M.npc * M.ndof)))
    {schR : (Fin (M.nn * M.ndof) → ℝ) → Nat → Nat → List Nat}
    (hsR : ∀ y, HypSchedOk M (schR y) (M.npc * M.ndof)) :
    ∃ (r : (Fin (M.nn * M.ndof) → ℝ) → List ℝ) (J : Crs ℝ),
      (∀ y, hypValue M evR (schR y) u v (List.ofFn y) z x = .ok (r y) ∧ (r y).length = M.nn * M.ndof) ∧
      hypGradientA M evF o sch u v (List.ofFn a) z x = .ok J ∧ J.WF M.nn M.nn ∧
      ∀ q, q < M.nn * M.ndof →
        HasFDerivAt (fun y => at0 (r y) q) (lin (M.nn * M.ndof) fun j => J.dense q j) a := by
  obtain ⟨r, J, h1, h2, h3, h4⟩ := par_gradient_v hM (rowAtVel_row hR _) (rowAtVel_row hF _) hg ho hu hz hx hgood
    (tracks_vel ht v) hs.toAcc fun y => (hsR y).toAcc
  refine ⟨r, J, fun y => ?_, ?_, h3, h4⟩
  · rw [hypValue_vel hM hu hv List.length_ofFn hz hx (hsR y) hR]; exact h1 y
  · rw [hypGradientA_eq hM hu hv List.length_ofFn hz hx hs hF]; exact h2

/-- `gradient_z` is the derivative of `value` with respect to the control. -/
theorem hyp_gradient_z {z : Fin M.nn → ℝ} {u v a x : List ℝ} (hu : u.length = M.nn * M.ndof)
    (hv : v.length = M.nn * M.ndof) (ha : a.length = M.nn * M.ndof) (hx : x.length = M.nn * M.dim)
    (hgood : ∀ c, c < M.nc → good (M.cellZ (List.ofFn z) c) (M.cellX x c)) (ht : HypTracks M rowR rowF good z)
    (hs : HypSchedOk M sch (M.npc * M.ndof * (M.npc * 1)))
    {schR : (Fin M.nn → ℝ) → Nat → Nat → List Nat} (hsR : ∀ y, HypSchedOk M (schR y) (M.npc * M.ndof)) :
    ∃ (r : (Fin M.nn → ℝ) → List ℝ) (J : Crs ℝ),
      (∀ y, hypValue M evR (schR y) u v a (List.ofFn y) x = .ok (r y) ∧ (r y).length = M.nn * M.ndof) ∧
      hypGradientZ M evF o sch u v a (List.ofFn z) x = .ok J ∧ J.WF M.nn M.nn ∧
      ∀ q, HasFDerivAt (fun y => at0 (r y) q) (lin M.nn fun j => J.dense j q) z := by
  obtain ⟨r, J, h1, h2, h3, h4⟩ := par_gradient_z hM (rowAtAcc_row hR _) (rowAtAcc_row hF _) hg ho hu hv hx hgood
    (tracks_acc ht a) hs.toPar fun y => (hsR y).toPar
  refine ⟨r, J, fun y => ?_, ?_, h3, h4⟩
  · rw [hypValue_acc hM hu hv ha List.length_ofFn hx (hsR y) hR]; exact h1 y
  · rw [hypGradientZ_eq hM hu hv ha List.length_ofFn hx hs hF]; exact h2

/-- `gradient_x` is the derivative of `value` with respect to the node coordinates. -/
theorem hyp_gradient_x {x : Fin (M.nn * M.dim) → ℝ} {u v a z : List ℝ} (hu : u.length = M.nn * M.ndof)
    (hv : v.length = M.nn * M.ndof) (ha : a.length = M.nn * M.ndof) (hz : z.length = M.nn)
    (hgood : ∀ c, c < M.nc → good (M.cellZ z c) (M.cellX (List.ofFn x) c)) (ht : HypTracks M rowR rowF good x)
    (hs : HypSchedOk M sch (M.npc * M.ndof * (M.npc * M.dim)))
    {schR : (Fin (M.nn * M.dim) → ℝ) → Nat → Nat → List Nat}
    (hsR : ∀ y, HypSchedOk M (schR y) (M.npc * M.ndof)) :
    ∃ (r : (Fin (M.nn * M.dim) → ℝ) → List ℝ) (J : Crs ℝ),
      (∀ y, hypValue M evR (schR y) u v a z (List.ofFn y) = .ok (r y) ∧ (r y).length = M.nn * M.ndof) ∧
      hypGradientX M evF o sch u v a z (List.ofFn x) = .ok J ∧ J.WF M.nn M.nn ∧
      ∀ q, HasFDerivAt (fun y => at0 (r y) q) (lin (M.nn * M.dim) fun j => J.dense j q) x := by
  obtain ⟨r, J, h1, h2, h3, h4⟩ := par_gradient_x hM (rowAtAcc_row hR _) (rowAtAcc_row hF _) hg ho hu hv hz hgood
    (tracks_acc ht a) hs.toPar fun y => (hsR y).toPar
  refine ⟨r, J, fun y => ?_, ?_, h3, h4⟩
  · rw [hypValue_acc hM hu hv ha hz List.length_ofFn (hsR y) hR]; exact h1 y
  · rw [hypGradientX_eq hM hu hv ha hz List.length_ofFn hs hF]; exact h2

end

end Plato.Dyn
