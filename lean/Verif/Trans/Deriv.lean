import Verif.Trans.Loops
import Verif.Crit.Energy

/-!
# C89: value and gradients of criteria of transient problems
-/

namespace Plato.Trans
open Finset Plato Plato.Mech Plato.Crit Filter Topology

/-- The evaluator with automatic differentiation values and the evaluator with numbers compute the same functions:
whenever the entries of the worksets of a cell track functions of `y`, so does the result of the cell. -/
def TTracks {E : Type} [NormedAddCommGroup E] [NormedSpace ℝ E] (M : FeModel) (F : Nat) (evR : TEvaluator ℝ)
    (evF : TEvaluator Fad) (good : (Nat → Nat → ℝ) → (Nat → ℝ) → (Nat → Nat → ℝ) → Prop) (dt : ℝ) (x : E) : Prop :=
  ∀ (k N : Nat) (L : Nat → Nat → E →L[ℝ] ℝ) (sF : Nat → V2 Fad) (zF : V2 Fad) (xF : V3 Fad) (sR : E → Nat → V2 ℝ)
    (zR : E → V2 ℝ) (xR : E → V3 ℝ), k < M.domains.length → (∀ f, f < F → PartOk M k (sF f) zF xF) →
    (∀ y f, f < F → PartOk M k (sR y f) (zR y) (xR y)) →
    (∀ f c l, f < F → c < M.size (M.part k) → l < M.npc * M.ndof →
      Tracks (L c) N x ((sF f).e c l) fun y => (sR y f).e c l) →
    (∀ c l, c < M.size (M.part k) → l < M.npc → Tracks (L c) N x (zF.e c l) fun y => (zR y).e c l) →
    (∀ c a i, c < M.size (M.part k) → a < M.npc → i < M.dim →
      Tracks (L c) N x (xF.e c a i) fun y => (xR y).e c a i) →
    (∀ c, c < M.size (M.part k) → good (fun f => (sR x f).e c) ((zR x).e c) ((xR x).e c)) →
    ∃ (rF : List Fad) (rR : E → List ℝ),
      evF k sF zF xF (List.replicate (M.size (M.part k)) 0) dt = .ok rF ∧
      (∀ y, evR k (sR y) (zR y) (xR y) (List.replicate (M.size (M.part k)) 0) dt = .ok (rR y)) ∧
      rF.length = M.size (M.part k) ∧ (∀ y, (rR y).length = M.size (M.part k)) ∧
      ∀ c, c < M.size (M.part k) → Tracks (L c) N x (at0 rF c) fun y => at0 (rR y) c

/-- What `good` means does not depend on entries that do not exist. -/
def TLocal (M : FeModel) (F : Nat) (good : (Nat → Nat → ℝ) → (Nat → ℝ) → (Nat → Nat → ℝ) → Prop) : Prop :=
  ∀ U U' Z Z' X X', (∀ f l, f < F → l < M.npc * M.ndof → U f l = U' f l) → (∀ a, a < M.npc → Z a = Z' a) →
    (∀ a k, a < M.npc → k < M.dim → X a k = X' a k) → good U Z X → good U' Z' X'

/-- Criteria that read the state only. -/
theorem ofState_tracks {E : Type} [NormedAddCommGroup E] [NormedSpace ℝ E] {M : FeModel} {F : Nat} (hF : 0 < F)
    {evR : ScalarEvaluator ℝ} {evF : ScalarEvaluator Fad} {good : (Nat → ℝ) → (Nat → ℝ) → (Nat → Nat → ℝ) → Prop}
    {dt : ℝ} {x : E} (h : CritTracks M evR evF good dt x) :
    TTracks M F (ofState evR) (ofState evF) (fun U => good (U 0)) dt x := by
  intro k N L sF zF xF sR zR xR hk pF pR hs hz hx hg
  exact h k N L (sF 0) zF xF (fun y => sR y 0) zR xR hk (pF 0 hF) (fun y => pR y 0 hF)
    (fun c l hc hl => hs 0 c l hF hc hl) hz hx hg

theorem ofState_local {M : FeModel} {F : Nat} (hF : 0 < F)
    {good : (Nat → ℝ) → (Nat → ℝ) → (Nat → Nat → ℝ) → Prop} (h : CritLocal M good) :
    TLocal M F fun U => good (U 0) :=
  fun U U' Z Z' X X' hU hZ hX hg => h _ _ Z Z' X X' (fun l hl => hU 0 l hF hl) hZ hX hg

/-- The evaluator does not read field `f`. -/
def Ignores {R : Type} (ev : TEvaluator R) (f : Nat) : Prop :=
  ∀ k w w' z x r dt, (∀ g, g ≠ f → w g = w' g) → ev k w z x r dt = ev k w' z x r dt

theorem ofState_ignores {R : Type} (ev : ScalarEvaluator R) {f : Nat} (hf : f ≠ 0) : Ignores (ofState ev) f := by
  intro k w w' z x r dt h
  unfold ofState
  rw [h 0 hf.symm]

/-- Vectors of the fields of a cell. -/
def cellF (M : FeModel) (u : Nat → List ℝ) (cell : Nat) (f l : Nat) : ℝ := cellS M (u f) cell l

section Ws
variable {M : FeModel} {F k : Nat} (hk : k < M.domains.length) {R : Type} [Zero R]
include hk

theorem gatherF_e (mk : Nat → Nat → ℝ → R) (u : Nat → List ℝ) {f c l : Nat} (hf : f < F)
    (hc : c < M.size (M.part k)) (hl : l < M.npc * M.ndof) :
    (gatherF M F mk k u f).e c l = mk f l (cellF M u (gcell (M.part k) c) f l) := by
  unfold gatherF
  rw [if_pos hf, Crit.part_eq hk]
  exact if_pos ⟨size_eq hk ▸ hc, hl⟩

theorem gatherZ_e (mk : Nat → ℝ → R) (z : List ℝ) {c l : Nat} (hc : c < M.size (M.part k)) (hl : l < M.npc) :
    (gather mk M.npc 1 M.c2n (domCells M k) z).e c l = mk l (M.cellZ z (gcell (M.part k) c) l) := by
  rw [Crit.part_eq hk]
  unfold FeModel.cellZ
  rw [← cellDof_one]
  exact if_pos ⟨size_eq hk ▸ hc, by rw [Nat.mul_one]; exact hl⟩

theorem gatherX_e (mk : Nat → ℝ → R) (x : List ℝ) {c a i : Nat} (hc : c < M.size (M.part k)) (ha : a < M.npc)
    (hi : i < M.dim) : (gatherX mk M.npc M.dim M.c2n (domCells M k) x).e c a i =
      mk (a * M.dim + i) (M.cellX x (gcell (M.part k) c) a i) := by
  rw [Crit.part_eq hk]
  exact if_pos ⟨size_eq hk ▸ hc, ha, hi⟩

theorem gatherF_ok (m1 : Nat → Nat → ℝ → R) (m2 m3 : Nat → ℝ → R) (u : Nat → List ℝ) (z x : List ℝ) {f : Nat}
    (hf : f < F) : PartOk M k (gatherF M F m1 k u f) (gather m2 M.npc 1 M.c2n (domCells M k) z)
      (gatherX m3 M.npc M.dim M.c2n (domCells M k) x) := by
  have hsz := size_eq hk
  unfold gatherF
  rw [if_pos hf]
  exact ⟨hsz.symm, rfl, hsz.symm, Nat.mul_one _, hsz.symm, rfl, rfl⟩

end Ws

section Deriv
variable {M : FeModel} (hM : M.Ok) {F : Nat} {evR : TEvaluator ℝ} {evF : TEvaluator Fad}
  {good : (Nat → Nat → ℝ) → (Nat → ℝ) → (Nat → Nat → ℝ) → Prop} (hg : TLocal M F good) {dt : ℝ}

include hM hg in
/-- Sum over the cells of one domain and one step. -/
theorem cellsT_deriv {m d : Nat} (hmd : m = M.nn * d) {p : Fin m → ℝ}
    (hev : TTracks M F evR evF good dt p) {uR : (Fin m → ℝ) → Nat → List ℝ} {zR xR : (Fin m → ℝ) → List ℝ}
    (hgood : ∀ c, c < M.nc → good (cellF M (uR p) c) (M.cellZ (zR p) c) (M.cellX (xR p) c))
    {mkS : Nat → Nat → ℝ → Fad} {mkZ mkX : Nat → ℝ → Fad}
    (hS : ∀ f c l, f < F → c < M.nc → l < M.npc * M.ndof → Tracks (fun l => coord m (cellDof M.npc d M.c2n c l))
      (M.npc * d) p (mkS f l (cellF M (uR p) c f l)) fun y => cellF M (uR y) c f l)
    (hZ : ∀ c l, c < M.nc → l < M.npc → Tracks (fun l => coord m (cellDof M.npc d M.c2n c l))
      (M.npc * d) p (mkZ l (M.cellZ (zR p) c l)) fun y => M.cellZ (zR y) c l)
    (hX : ∀ c a k, c < M.nc → a < M.npc → k < M.dim → Tracks (fun l => coord m (cellDof M.npc d M.c2n c l))
      (M.npc * d) p (mkX (a * M.dim + k) (M.cellX (xR p) c a k)) fun y => M.cellX (xR y) c a k)
    {k : Nat} (hk : k < M.domains.length) :
    ∃ (rF : List Fad) (rR : (Fin m → ℝ) → List ℝ),
      cellsT M F mkS mkZ mkX evF k (uR p) (zR p) (xR p) dt = .ok rF ∧
      (∀ y, cellsT M F (fun _ => plainOf) plainOf plainOf evR k (uR y) (zR y) (xR y) dt = .ok (rR y)) ∧
      rF.length = M.size (M.part k) ∧ (∀ y, (rR y).length = M.size (M.part k)) ∧
      (∀ c, c < M.size (M.part k) → (at0 rF c).val = at0 (rR p) c) ∧
      HasFDerivAt (fun y => ∑ c ∈ range (M.size (M.part k)), at0 (rR y) c)
        (lin m (scatteredVec M.npc d M.c2n (M.part k) (M.size (M.part k)) fun c l => (at0 rF c).dx l)) p := by
  have hd := hM.domOk k
  have hsz := size_eq hk
  obtain ⟨rF, rR, h1, h2, h3, h4, h5⟩ := hev k (M.npc * d)
    (fun c l => coord m (cellDof M.npc d M.c2n (gcell (M.part k) c) l))
    (gatherF M F mkS k (uR p)) (gather mkZ M.npc 1 M.c2n (domCells M k) (zR p))
    (gatherX mkX M.npc M.dim M.c2n (domCells M k) (xR p))
    (fun y => gatherF M F (fun _ => plainOf) k (uR y))
    (fun y => gather plainOf M.npc 1 M.c2n (domCells M k) (zR y))
    (fun y => gatherX plainOf M.npc M.dim M.c2n (domCells M k) (xR y)) hk (fun f hf => gatherF_ok hk _ _ _ _ _ _ hf)
    (fun y f hf => gatherF_ok hk _ _ _ _ _ _ hf)
    (fun f c l hf hc hl => by
      rw [gatherF_e hk _ _ hf hc hl]
      exact (hS f _ l hf (hd.1 c hc) hl).congr (funext fun y =>
        (gatherF_e hk (fun _ => plainOf) (uR y) hf hc hl).symm))
    (fun c l hc hl => by
      rw [gatherZ_e hk _ _ hc hl]
      exact (hZ _ l (hd.1 c hc) hl).congr (funext fun y => (gatherZ_e hk plainOf (zR y) hc hl).symm))
    (fun c a i hc ha hi => by
      rw [gatherX_e hk _ _ hc ha hi]
      exact (hX _ a i (hd.1 c hc) ha hi).congr (funext fun y => (gatherX_e hk plainOf (xR y) hc ha hi).symm))
    (fun c hc => hg _ _ _ _ _ _ (fun f l hf hl => (gatherF_e hk (fun _ => plainOf) (uR p) hf hc hl).symm)
      (fun a ha => (gatherZ_e hk plainOf (zR p) hc ha).symm)
      (fun a i ha hi => (gatherX_e hk plainOf (xR p) hc ha hi).symm) (hgood _ (hd.1 c hc)))
  refine ⟨rF, rR, ?_, fun y => ?_, h3, h4, fun c hc => (h5 c hc).val, ?_⟩
  · unfold cellsT
    rw [← hsz]
    exact h1
  · unfold cellsT
    rw [← hsz]
    exact h2 y
  refine (HasFDerivAt.fun_sum fun c hc => (h5 c (mem_range.1 hc)).deriv).congr_fderiv ?_
  subst hmd
  rw [← lin_coord]
  exact (scatteredVec_smul hM.mesh (hM.domOk k) _ _).symm

theorem sum_down {V : Type} [AddCommMonoid V] (T : Nat) (G : Nat → V) :
    ∑ i ∈ range (T - 1), G (T - 2 - i) = ∑ i ∈ range (T - 1), G i := by
  rw [← sum_range_reflect]
  refine sum_congr rfl fun i hi => ?_
  rw [show T - 2 - (T - 1 - 1 - i) = i by have := mem_range.1 hi; omega]

variable {T : Nat} {H : List (List (List ℝ))} (hH : HistOk M F H T)

include hM hg hH in
/-- Gradients with respect to control or configuration: the steps after the first contribute. -/
theorem reportsT_steps {m d : Nat} (hmd : m = M.nn * d) {p : Fin m → ℝ}
    (hev : TTracks M F evR evF good dt p) {zR xR : (Fin m → ℝ) → List ℝ} (hz : ∀ y, (zR y).length = M.nn)
    (hx : ∀ y, (xR y).length = M.nn * M.dim)
    (hgood : ∀ t, 0 < t → t < T → ∀ c, c < M.nc →
      good (cellF M (fun f => stateAt H f t) c) (M.cellZ (zR p) c) (M.cellX (xR p) c))
    {mkZ mkX : Nat → ℝ → Fad}
    (hZ : ∀ c l, c < M.nc → l < M.npc → Tracks (fun l => coord m (cellDof M.npc d M.c2n c l))
      (M.npc * d) p (mkZ l (M.cellZ (zR p) c l)) fun y => M.cellZ (zR y) c l)
    (hX : ∀ c a k, c < M.nc → a < M.npc → k < M.dim → Tracks (fun l => coord m (cellDof M.npc d M.c2n c l))
      (M.npc * d) p (mkX (a * M.dim + k) (M.cellX (xR p) c a k)) fun y => M.cellX (xR y) c a k)
    {post : Post} {sv sg : TSched} {w : Nat} (hsv : sv.Ok M F (T - 1) w) (hsg : sg.Ok M F (T - 1) (M.npc * d))
    {pick : Nat → Nat → Nat} (hpl : ∀ f t, f < F → 0 < t → t < T → pick f t < T)
    (hpick : ∀ k t, 0 < t → t < T → cellsT M F (fun _ => constOf) mkZ mkX evF k (fun f => stateAt H f (pick f t))
      (zR p) (xR p) dt = cellsT M F (fun _ => constOf) mkZ mkX evF k (fun f => stateAt H f t) (zR p) (xR p) dt)
    (hp : ∀ v, transValue M F evR Post.none sv H (zR p) (xR p) dt = .ok v → post.Ok m v) :
    ∃ (f : (Fin m → ℝ) → ℝ) (g : List ℝ),
      (∀ y, transValue M F evR post sv H (zR y) (xR y) dt = .ok (f y)) ∧
      (stepsDown H >>= fun steps => gradT M F d (fun _ => constOf) mkZ mkX evF post sg pick steps H (zR p) (xR p) dt)
        = .ok g ∧ g.length = m ∧ HasFDerivAt f (lin m (at0 g)) p := by
  have hc : ∀ k t, ∃ (rF : List Fad) (rR : (Fin m → ℝ) → List ℝ), ∀ (_ : t + 1 < T), k < M.domains.length →
      cellsT M F (fun _ => constOf) mkZ mkX evF k (fun f => stateAt H f (t + 1)) (zR p) (xR p) dt = .ok rF ∧
      (∀ y, cellsT M F (fun _ => plainOf) plainOf plainOf evR k (fun f => stateAt H f (t + 1)) (zR y) (xR y) dt =
        .ok (rR y)) ∧
      rF.length = M.size (M.part k) ∧ (∀ y, (rR y).length = M.size (M.part k)) ∧
      (∀ c, c < M.size (M.part k) → (at0 rF c).val = at0 (rR p) c) ∧
      HasFDerivAt (fun y => ∑ c ∈ range (M.size (M.part k)), at0 (rR y) c)
        (lin m (scatteredVec M.npc d M.c2n (M.part k) (M.size (M.part k)) fun c l => (at0 rF c).dx l)) p := by
    intro k t
    by_cases h : t + 1 < T ∧ k < M.domains.length
    · obtain ⟨rF, rR, h'⟩ := cellsT_deriv hM hg hmd hev (uR := fun _ f => stateAt H f (t + 1))
        (mkS := fun _ => constOf) (hgood _ (Nat.succ_pos t) h.1) (fun f c l _ _ _ => Tracks.const _) hZ hX h.2
      exact ⟨rF, rR, fun _ _ => h'⟩
    · exact ⟨[], fun _ => [], fun h1 h2 => absurd ⟨h1, h2⟩ h⟩
  choose rF rR hc using hc
  have hv := fun y post => transValue_ok hM hH (hz y) (hx y) hsv (dt := dt) (ev := evR) post
    (r := fun k t => rR k t y) (fun k t ht hk => (hc k t ht hk).2.1 y)
    (fun k t hk ht => (hc k t ht hk).2.2.2.1 y)
  obtain ⟨g, hl, hq, hgr⟩ := gradT_ok hM hH (hz p) (hx p) (d := d) (dt := dt) (ev := evF) post (pick := pick)
    (steps := (List.range (T - 1)).map fun i => T - 1 - i) (sc := sg) (mkS := fun _ => constOf) (mkZ := mkZ)
    (mkX := mkX)
    (by
      intro f t hf ht
      simp only [List.mem_map, List.mem_range] at ht
      obtain ⟨i, hi, rfl⟩ := ht
      exact hpl f _ hf (by omega) (by omega))
    (by simpa using hsg) (r := fun k i => rF k (T - 2 - i))
    (fun k i hi hk => by
      simp only [List.length_map, List.length_range] at hi
      simp only [List.getElem_map, List.getElem_range]
      rw [hpick k _ (by omega) (by omega), ← (hc k (T - 2 - i) (by omega) hk).1]
      congr 1
      funext f
      congr 1
      omega)
    (fun k i hk hi => by
      simp only [List.length_map, List.length_range] at hi
      exact (hc k _ (by omega) hk).2.2.1)
  simp only [List.length_map, List.length_range] at hq hgr
  have hval : ∑ k ∈ range M.domains.length, ∑ t ∈ range (T - 1), ∑ c ∈ range (M.size (M.part k)),
      (at0 (rF k (T - 2 - t)) c).val = ∑ k ∈ range M.domains.length, ∑ t ∈ range (T - 1),
        ∑ c ∈ range (M.size (M.part k)), at0 (rR k t p) c := by
    refine sum_congr rfl fun k hk => ?_
    rw [sum_down T fun t => ∑ c ∈ range (M.size (M.part k)), (at0 (rF k t) c).val]
    exact sum_congr rfl fun t ht => sum_congr rfl fun c hc' =>
      (hc k t (by have := mem_range.1 ht; omega) (mem_range.1 hk)).2.2.2.2.1 c (mem_range.1 hc')
  have hf : HasFDerivAt (fun y => ∑ k ∈ range M.domains.length, ∑ t ∈ range (T - 1),
      ∑ c ∈ range (M.size (M.part k)), at0 (rR k t y) c) (lin m (at0 g)) p := by
    refine (HasFDerivAt.fun_sum fun k hk => HasFDerivAt.fun_sum fun t ht =>
      (hc k t (by have := mem_range.1 ht; omega) (mem_range.1 hk)).2.2.2.2.2).congr_fderiv ?_
    rw [← lin_coord (at0 g)]
    simp only [hq, sum_smul]
    symm
    rw [sum_comm]
    refine sum_congr rfl fun k _ => ?_
    rw [sum_comm]
    refine (sum_congr rfl fun t _ => lin_coord _).trans ?_
    exact sum_down T fun t => lin m (scatteredVec M.npc d M.c2n (M.part k) (M.size (M.part k))
      fun c l => (at0 (rF k t) c).dx l)
  obtain ⟨g', e, hl', hd⟩ := Post.reports (post := post) (hl.trans hmd.symm) hf (hp _ (hv p Post.none))
  exact ⟨_, g', fun y => hv y post, by rw [stepsDown_ok hH, Res.ok_bind, hgr, hval]; exact e, hl', hd⟩

/-- The histories with the vector of field `f` at step `j` replaced. -/
def setStep (H : List (List (List ℝ))) (f j : Nat) (u : List ℝ) : List (List (List ℝ)) :=
  H.set f ((H[f]?.getD []).set j u)

theorem set_same {α : Type} {l : List α} {i : Nat} {a : α} (h : l[i]? = some a) : l.set i a = l := by
  obtain ⟨hi, rfl⟩ := List.getElem?_eq_some_iff.1 h
  exact List.set_getElem_self hi

theorem stateAt_setStep {H : List (List (List ℝ))} {f j : Nat} {u : List ℝ} (hf : f < H.length)
    (hj : j < (H[f]?.getD []).length) (g t : Nat) :
    stateAt (setStep H f j u) g t = if g = f ∧ t = j then u else stateAt H g t := by
  unfold stateAt setStep
  by_cases hg : g = f
  · subst hg
    rw [List.getElem?_set_self hf]
    by_cases ht : t = j
    · subst ht
      simp [List.getElem?_set_self hj]
    · rw [if_neg (fun h => ht h.2)]
      simp [List.getElem?_set_ne (Ne.symm ht)]
  · rw [if_neg (fun h => hg h.1), List.getElem?_set_ne (Ne.symm hg)]

include hH in
theorem HistOk.setStep {f j : Nat} {u : List ℝ} (hu : u.length = M.nn * M.ndof) :
    HistOk M F (setStep H f j u) T := by
  refine ⟨hH.fields, hH.steps, fun g hg => ?_⟩
  obtain ⟨h, eh, hl, hm⟩ := hH.field g hg
  unfold Trans.setStep
  by_cases hgf : g = f
  · subst hgf
    obtain ⟨hfl, -⟩ := List.getElem?_eq_some_iff.1 eh
    refine ⟨h.set j u, ?_, by rw [List.length_set, hl], fun v hv => ?_⟩
    · rw [List.getElem?_set_self hfl, eh]
      rfl
    · rcases List.mem_or_eq_of_mem_set hv with h' | rfl
      · exact hm v h'
      · exact hu
  · exact ⟨h, by rw [List.getElem?_set_ne (Ne.symm hgf)]; exact eh, hl, hm⟩

include hM hg hH in
/-- Gradient with respect to field `f` at step `j`: only that step is evaluated. -/
theorem reportsT_field {p : Fin (M.nn * M.ndof) → ℝ} (hev : TTracks M F evR evF good dt p) {z x : List ℝ}
    {f j : Nat} (hf : f < F) (hj0 : 0 < j) (hjT : j < T) (hj : stateAt H f j = List.ofFn p)
    (hz : z.length = M.nn) (hx : x.length = M.nn * M.dim)
    (hgood : ∀ t, 0 < t → t < T → ∀ c, c < M.nc →
      good (cellF M (fun f => stateAt H f t) c) (M.cellZ z c) (M.cellX x c))
    {post : Post} {sv sg : TSched} {w : Nat} (hsv : sv.Ok M F (T - 1) w) (hsg : sg.Ok M F 1 (M.npc * M.ndof))
    (hone : T = 2 ∨ post = Post.none)
    (hp : ∀ v, transValue M F evR Post.none sv H z x dt = .ok v → post.Ok (M.nn * M.ndof) v) :
    ∃ (v : (Fin (M.nn * M.ndof) → ℝ) → ℝ) (g : List ℝ),
      (∀ y, transValue M F evR post sv (setStep H f j (List.ofFn y)) z x dt = .ok (v y)) ∧
      transGradField M F f evF post sg H z x j dt = .ok g ∧
      g.length = M.nn * M.ndof ∧ HasFDerivAt v (lin (M.nn * M.ndof) (at0 g)) p := by
  obtain ⟨h, eh, hlh, -⟩ := hH.field f hf
  obtain ⟨hfl, -⟩ := List.getElem?_eq_some_iff.1 eh
  have hjl : j < (H[f]?.getD []).length := by rw [eh]; exact hlh ▸ hjT
  have hst := fun u g t => stateAt_setStep (u := u) hfl hjl g t
  -- the other steps
  have hoth : ∀ k t, ∃ r : List ℝ, t + 1 < T → k < M.domains.length →
      cellsT M F (fun _ => plainOf) plainOf plainOf evR k (fun f => stateAt H f (t + 1)) z x dt = .ok r ∧
        r.length = M.size (M.part k) := by
    intro k t
    by_cases h : t + 1 < T ∧ k < M.domains.length
    · obtain ⟨rF, rR, h1, h2, h3, h4, -⟩ := cellsT_deriv hM hg rfl hev (uR := fun _ f => stateAt H f (t + 1))
        (zR := fun _ => z)
        (xR := fun _ => x) (mkS := fun _ => constOf) (mkZ := constOf) (mkX := constOf) (hgood _ (Nat.succ_pos t) h.1)
        (fun f c l _ _ _ => Tracks.const _) (fun c l _ _ => Tracks.const _) (fun c a k _ _ _ => Tracks.const _) h.2
      exact ⟨rR p, fun _ _ => ⟨h2 p, h4 p⟩⟩
    · exact ⟨[], fun h1 h2 => absurd ⟨h1, h2⟩ h⟩
  choose ro hoth using hoth
  have hc : ∀ k, ∃ (rF : List Fad) (rR : (Fin (M.nn * M.ndof) → ℝ) → List ℝ), k < M.domains.length →
      cellsT M F (fun g => if g = f then seedOf else constOf) constOf constOf evF k (fun g => stateAt H g j) z x dt
        = .ok rF ∧
      (∀ y, cellsT M F (fun _ => plainOf) plainOf plainOf evR k
        (fun g => stateAt (setStep H f j (List.ofFn y)) g j) z x dt = .ok (rR y)) ∧
      rF.length = M.size (M.part k) ∧ (∀ y, (rR y).length = M.size (M.part k)) ∧
      (∀ c, c < M.size (M.part k) → (at0 rF c).val = at0 (rR p) c) ∧
      HasFDerivAt (fun y => ∑ c ∈ range (M.size (M.part k)), at0 (rR y) c)
        (lin _ (scatteredVec M.npc M.ndof M.c2n (M.part k) (M.size (M.part k))
          fun c l => (at0 rF c).dx l)) p := by
    intro k
    by_cases h : k < M.domains.length
    · have e : (fun g => stateAt (setStep H f j (List.ofFn p)) g j) = fun g => stateAt H g j := by
        funext g
        rw [hst]
        split_ifs with h
        · rw [h.1, hj]
        · rfl
      obtain ⟨rF, rR, h'⟩ := cellsT_deriv hM hg rfl hev
        (uR := fun y g => stateAt (setStep H f j (List.ofFn y)) g j) (zR := fun _ => z)
        (xR := fun _ => x) (mkS := fun g => if g = f then seedOf else constOf) (mkZ := constOf) (mkX := constOf)
        (by rw [e]; exact hgood j hj0 hjT)
        (fun g c l hg' hc hl => by
          simp only [cellF, hst]
          by_cases hgf : g = f
          · simp only [hgf, if_true, and_self, cellS, at0_ofFn]
            exact Tracks.seed (L := fun l => coord _ (cellDof M.npc M.ndof M.c2n c l)) hl
          · simp only [hgf, if_false, false_and]
            exact Tracks.const _)
        (fun c l _ _ => Tracks.const _) (fun c a k _ _ _ => Tracks.const _) h
      rw [e] at h'
      exact ⟨rF, rR, fun _ => h'⟩
    · exact ⟨[], fun _ => [], fun h1 => absurd h1 h⟩
  choose rF rR hc using hc
  have hv := fun y post => transValue_ok hM (hH.setStep (f := f) (j := j) (u := List.ofFn y) List.length_ofFn) hz hx
    hsv (dt := dt) (ev := evR) post
    (r := fun k t => if t + 1 = j then rR k y else ro k t) (fun k t ht hk => by
      split_ifs with h
      · rw [h]
        exact (hc k hk).2.1 y
      · rw [← (hoth k t ht hk).1]
        congr 1
        funext g
        rw [hst, if_neg (fun h' => h h'.2)])
    (fun k t hk ht => by
      split_ifs with h
      · exact (hc k hk).2.2.2.1 y
      · exact (hoth k t ht hk).2)
  obtain ⟨g, hl, hq, hgr⟩ := gradT_ok hM hH hz hx (d := M.ndof) (dt := dt) (ev := evF) post (pick := sameStep)
    (steps := [j]) (sc := sg) (mkS := fun g => if g = f then seedOf else constOf) (mkZ := constOf) (mkX := constOf)
    (fun f t _ ht => by rw [List.mem_singleton.1 ht]; exact hjT) hsg
    (r := fun k _ => rF k)
    (fun k t ht hk => by
      have : t = 0 := by simpa using ht
      subst this
      exact (hc k hk).1) (fun k t hk _ => (hc k hk).2.2.1)
  simp only [List.length_singleton, range_one, sum_singleton] at hq hgr
  have hjr : j - 1 ∈ range (T - 1) := mem_range.2 (by omega)
  have hff : HasFDerivAt (fun y => ∑ k ∈ range M.domains.length, ∑ t ∈ range (T - 1),
      ∑ c ∈ range (M.size (M.part k)), at0 (if t + 1 = j then rR k y else ro k t) c)
      (lin (M.nn * M.ndof) (at0 g)) p := by
    have : HasFDerivAt (fun y => ∑ k ∈ range M.domains.length, ∑ t ∈ range (T - 1),
        ∑ c ∈ range (M.size (M.part k)), at0 (if t + 1 = j then rR k y else ro k t) c)
        (∑ k ∈ range M.domains.length, ∑ t ∈ range (T - 1), if t = j - 1 then
          lin (M.nn * M.ndof) (scatteredVec M.npc M.ndof M.c2n (M.part k) (M.size (M.part k))
          fun c l => (at0 (rF k) c).dx l) else 0) p := by
      refine HasFDerivAt.fun_sum fun k hk => HasFDerivAt.fun_sum fun t _ => ?_
      have e : t + 1 = j ↔ t = j - 1 := by omega
      simp only [e]
      split_ifs with h
      · exact (hc k (mem_range.1 hk)).2.2.2.2.2
      · exact hasFDerivAt_const _ _
    refine this.congr_fderiv ?_
    rw [← lin_coord (at0 g)]
    simp only [hq, sum_smul]
    symm
    rw [sum_comm]
    refine sum_congr rfl fun k _ => ?_
    rw [sum_ite_eq' (range (T - 1)) (j - 1), if_pos hjr]
    exact lin_coord _
  have hvp := hv p Post.none
  have hpS : transValue M F evR Post.none sv (setStep H f j (List.ofFn p)) z x dt =
      transValue M F evR Post.none sv H z x dt := by
    have : setStep H f j (List.ofFn p) = H := by
      unfold setStep
      have e1 : (H[f]?.getD []).set j (List.ofFn p) = h := by
        rw [eh]
        refine set_self ?_
        rw [← hj]
        unfold stateAt
        rw [eh]
        have : j < h.length := hlh ▸ hjT
        simp [List.getElem?_eq_getElem this]
      rw [e1]
      exact set_same eh
    rw [this]
  rw [hpS] at hvp
  unfold transGradField
  rcases hone with h1 | rfl
  · obtain ⟨g', e, hl', hd⟩ := Post.reports (post := post) hl hff (hp _ hvp)
    refine ⟨_, g', fun y => hv y post, ?_, hl', hd⟩
    rw [hgr, ← e]
    congr 1
    refine sum_congr rfl fun k hk => ?_
    have hj1 : j = 1 := by omega
    subst hj1
    subst h1
    simp only [Nat.add_one_sub_one, range_one, sum_singleton, Nat.zero_add, if_true]
    exact sum_congr rfl fun c hc' => (hc k (mem_range.1 hk)).2.2.2.2.1 c (mem_range.1 hc')
  · exact ⟨_, g, fun y => hv y Post.none, by rw [hgr]; rfl, hl, hff⟩

end Deriv

end Plato.Trans
