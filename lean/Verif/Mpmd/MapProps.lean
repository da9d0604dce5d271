import Verif.Mpmd.Toy
import Verif.MeshMap.Adjoint
import Mathlib.Analysis.Calculus.Deriv.Add
import Mathlib.Analysis.Calculus.Deriv.Mul

/-!
# The mesh map between imported controls and exported gradients (C93)
-/

namespace Plato.Mpmd
open Plato Finset

variable {S : Sim}

/-- A map of vectors of length `n` that multiplies with the matrix `A`, and its transpose. -/
structure Adj (m : MapFns) (n : Nat) (A : Nat → Nat → ℝ) : Prop where
  apply : ∀ x, x.length = n → ∃ u, m.apply x = .ok u ∧ u.length = n ∧ ∀ i, i < n → at0 u i = ∑ j ∈ range n, A i j * at0 x j
  applyT : ∀ y, y.length = n → ∃ v, m.applyT y = .ok v ∧ v.length = n ∧
    ∀ j, j < n → at0 v j = ∑ i ∈ range n, A i j * at0 y i

/-- `apply(mMeshMap, ..)` and `applyT(mMeshMap, ..)`, Analyze_App.hpp:578-593, with the schedules of the products; the
output vectors are new. -/
def mapFns (m : MeshMapData ℝ) (p1 p2 p3 p4 : List Nat) : MapFns where
  apply x := m.apply p1 p2 x (List.replicate x.length 0)
  applyT y := m.applyT p3 p4 y (List.replicate y.length 0)

/-- The matrix of a map with a filter that is applied first or last. -/
noncomputable def mapMat (n : Nat) (mat : SpMat ℝ) (filter : Option (SpMat ℝ)) (first : Bool) (i j : Nat) : ℝ :=
  match filter with
  | none => mat.dense i j
  | some f => if first then ∑ k ∈ range n, mat.dense i k * f.dense k j else ∑ k ∈ range n, f.dense i k * mat.dense k j

theorem mul_mul (n : Nat) (A B : SpMat ℝ) (x : Nat → ℝ) (i : Nat) :
    A.mul n (B.mul n x) i = ∑ j ∈ range n, (∑ k ∈ range n, A.dense i k * B.dense k j) * x j := by
  unfold SpMat.mul
  simp only [mul_sum, sum_mul]
  rw [sum_comm]
  exact sum_congr rfl fun j _ => sum_congr rfl fun k _ => by ring

/-- The unit vector. -/
def unit (n j : Nat) : List ℝ := (List.range n).map fun i => if i = j then 1 else 0

/-- The map that is built from a matrix and a filter multiplies with their product, and `applyT` with its transpose, for
all schedules and interleavings. -/
theorem C93_map {n : Nat} {mat : SpMat ℝ} {filter : Option (SpMat ℝ)} (hm : mat.WF n)
    (hf : ∀ f, filter = some f → f.WF n) (ff : Bool) {o1 o2 : List Nat}
    {s1 s2 : List (List TMicro) → List (Nat × TMicro)}
    (ho1 : ∀ ops, transposeCountOps mat = Res.ok ops → IsSchedule o1 ops.length)
    (hs1 : ∀ progs, transposeThreads mat = Res.ok progs → IsInterleaving progs (s1 progs))
    (ho2 : ∀ f ops, filter = some f → transposeCountOps f = Res.ok ops → IsSchedule o2 ops.length)
    (hs2 : ∀ f progs, filter = some f → transposeThreads f = Res.ok progs → IsInterleaving progs (s2 progs))
    {p1 p2 p3 p4 : List Nat} (h1 : IsSchedule p1 n) (h2 : IsSchedule p2 n) (h3 : IsSchedule p3 n)
    (h4 : IsSchedule p4 n) :
    (MeshMapData.make o1 o2 s1 s2 mat filter ff).Sat fun m =>
      Adj (mapFns m p1 p2 p3 p4) n (mapMat n mat filter ff) := by
  refine (C16_adjoint hm hf ff ho1 hs1 ho2 hs2).mono fun m h => ?_
  have key : ∀ x y : List ℝ, x.length = n → y.length = n →
      ∃ u v, (mapFns m p1 p2 p3 p4).apply x = .ok u ∧ (mapFns m p1 p2 p3 p4).applyT y = .ok v ∧ u.length = n ∧
        v.length = n ∧ (∀ i, i < n → at0 u i = ∑ j ∈ range n, mapMat n mat filter ff i j * at0 x j) ∧
        ∑ i ∈ range n, at0 u i * at0 y i = ∑ i ∈ range n, at0 x i * at0 v i := by
    intro x y hx hy
    obtain ⟨u, v, e1, e2, e3, e4, e5, e6⟩ := h p1 p2 p3 p4 x y (List.replicate x.length 0) (List.replicate y.length 0)
      h1 h2 h3 h4 hx hy (by simpa using hx) (by simpa using hy)
    refine ⟨u, v, e1, e2, e3, e4, fun i hi => ?_, e6⟩
    rw [e5 i hi]
    unfold mapMat
    cases filter with
    | none => rfl
    | some f =>
      dsimp only
      split_ifs
      · exact mul_mul n _ _ _ i
      · exact mul_mul n _ _ _ i
  refine ⟨fun x hx => ?_, fun y hy => ?_⟩
  · obtain ⟨u, v, e1, _, e3, _, e5, _⟩ := key x x hx hx
    exact ⟨u, e1, e3, e5⟩
  · obtain ⟨u, v, _, e2, _, e4, _, _⟩ := key y y hy hy
    refine ⟨v, e2, e4, fun j hj => ?_⟩
    obtain ⟨u', v', _, f2, _, _, f5, f6⟩ := key (unit n j) y (by simp [unit]) hy
    rw [e2] at f2
    cases f2
    have l : ∑ i ∈ range n, at0 (unit n j) i * at0 v i = at0 v j := by
      rw [sum_eq_single j]
      · unfold unit; rw [at0_map_range _ _ _ hj]; simp
      · intro i hi hne
        unfold unit
        rw [at0_map_range _ _ _ (mem_range.1 hi)]
        simp [hne]
      · intro hn; exact absurd (mem_range.2 hj) hn
    rw [← l, ← f6]
    refine sum_congr rfl fun i hi => ?_
    rw [f5 i (mem_range.1 hi)]
    congr 1
    rw [sum_eq_single j]
    · unfold unit; rw [at0_map_range _ _ _ hj]; simp
    · intro k hk hne
      unfold unit
      rw [at0_map_range _ _ _ (mem_range.1 hk)]
      simp [hne]
    · intro hn; exact absurd (mem_range.2 hj) hn

/-! ## Imported controls -/

/-- **C93.**  The topology that is imported goes through the map. -/
theorem C93_import {a b : App S} {m : MapFns} {n : Nat} {A : Nat → Nat → ℝ} {x : List ℝ} (hm : a.meshMap = some m)
    (hA : Adj m n A) (hx : x.length = n) (h : importField sTopology x a = .ok () b) :
    b.control.length = n ∧ (∀ i, i < n → at0 b.control i = ∑ j ∈ range n, A i j * at0 x j) ∧
      b = { a with control := b.control } := by
  unfold importField at h
  rw [bind_run (get_run a), if_pos rfl, hm] at h
  simp only [bind_ok, lift_ok, modify_ok] at h
  obtain ⟨z, s1, ⟨hz, rfl⟩, _, s2, rfl, y, s3, ⟨hy, rfl⟩, rfl⟩ := h
  have hzx : x = z := by
    unfold copyInto at hz
    split_ifs at hz
    · exact Res.ok.inj hz
    · cases hz
  subst hzx
  obtain ⟨u, e1, e2, e3⟩ := hA.apply x hx
  rw [e1] at hy
  cases hy
  exact ⟨e2, e3, rfl⟩

/-- Without a map the topology is what was imported. -/
theorem C93_import_plain {a b : App S} {x : List ℝ} (hm : a.meshMap = none) (h : importField sTopology x a = .ok () b) :
    b = { a with control := x } := by
  unfold importField at h
  rw [bind_run (get_run a), if_pos rfl, hm] at h
  simp only [bind_ok, lift_ok, modify_ok, pure_ok] at h
  obtain ⟨z, s1, ⟨hz, rfl⟩, _, s2, rfl, _, rfl⟩ := h
  unfold copyInto at hz
  split_ifs at hz
  · cases hz; rfl
  · cases hz

/-! ## Exported gradients -/

/-- Criterion of an operation that computes a gradient by the controls. -/
def Kind.gradOf : Kind → Option Str
  | .criterion c _ => some c
  | .gradient c => some c
  | _ => none

/-- The gradient that an operation leaves. -/
theorem gradient_of_compute {o c : Str} {op : Op} {a b : App S} (ho : a.ops o = some op) (hk : op.kind.gradOf = some c)
    (h : compute o a = .ok () b) :
    ∃ p g p', S.gradZ p b.control b.sol c = .ok (g, p') ∧ b.prob = some p' ∧ b.gradsZ c = some g := by
  obtain ⟨d, a1, _, _, h2⟩ := compute_ok ho h
  unfold runOp at h2
  cases hkk : op.kind <;> rw [hkk] at h2 hk <;> simp only [Kind.gradOf, Option.some.injEq, reduceCtorEq] at hk
  · subst hk
    simp only [bind_ok] at h2
    obtain ⟨_, a2, h3, h4⟩ := h2
    obtain ⟨_, p, g, p', _, r⟩ := stay_gradZ h4
    exact ⟨p, g, p', r⟩
  · subst hk
    obtain ⟨_, p, g, p', _, r⟩ := stay_gradZ h2
    exact ⟨p, g, p', r⟩

theorem exportData_gradZ {n c : Str} {a b : App S} {g v : List ℝ} {k : Nat} (hat : '@' ∉ n) (h0 : n ≠ [])
    (ht : n ≠ sTopology) (hn : a.gradZName n = some c) (hg : a.gradsZ c = some g)
    (hu : unmapGrad a.meshMap c g { a with gradsZ := upd a.gradsZ c g } = .ok v b) (hk : v.length = k) :
    exportData n .field k a = .ok (some v) b := by
  unfold exportData
  rw [bind_run (lift_run_ok (fieldName_plain hat h0) a)]
  dsimp only
  unfold exportField
  rw [bind_run (get_run a), if_neg ht, hn]
  dsimp only
  rw [hg]
  simp only [Option.getD_some]
  rw [bind_run (modify_run _ _), bind_run hu]
  unfold copyFrom
  rw [if_pos hk]
  rfl

/-- **C93.**  With a mesh map, the gradient that is exported is the gradient by the imported controls.

`V` is the criterion as a function of the topology in the problem, and the problem returns its derivative at its
topology.  The topology `x` is imported, an operation computes the gradient, and the gradient `v` is exported: `v` is
the derivative at `x` of the criterion of the mapped controls, in every direction.

Partial: for the first export after the operation (`C93_twice_false`). -/
theorem C93_gradient_partial {a b d : App S} {m : MapFns} {n : Nat} {A : Nat → Nat → ℝ} {x : List ℝ} {o c name : Str}
    {op : Op} {V : (Fin n → ℝ) → ℝ} (hm : a.meshMap = some m) (hA : Adj m n A) (hx : x.length = n)
    (himp : importField sTopology x a = .ok () b) (ho : b.ops o = some op) (hk : op.kind.gradOf = some c)
    (hrun : compute o b = .ok () d) (hctl : d.control = b.control)
    (hname : d.gradZName name = some c) (hat : '@' ∉ name) (h0 : name ≠ []) (ht : name ≠ sTopology)
    (hV : ∀ p g p', S.gradZ p d.control d.sol c = .ok (g, p') → d.prob = some p' → g.length = n ∧
      ∀ k : Fin n → ℝ, HasDerivAt (fun t => V fun i => at0 d.control i + t * k i) (∑ i : Fin n, at0 g i * k i) 0) :
    ∃ v e, exportData name .field n d = .ok (some v) e ∧ v.length = n ∧ ∀ h : List ℝ, h.length = n →
      HasDerivAt (fun t => V fun i => ∑ j ∈ range n, A i j * (at0 x j + t * at0 h j)) (∑ j ∈ range n, at0 v j * at0 h j)
        0 := by
  obtain ⟨l1, l2, l3⟩ := C93_import hm hA hx himp
  obtain ⟨p, g, p', hg, hp, hs⟩ := gradient_of_compute ho hk hrun
  obtain ⟨gl, hd⟩ := hV p g p' hg hp
  obtain ⟨v, e1, e2, e3⟩ := hA.applyT g gl
  have key : ∀ h : List ℝ, h.length = n →
      HasDerivAt (fun t => V fun i => ∑ j ∈ range n, A i j * (at0 x j + t * at0 h j)) (∑ j ∈ range n, at0 v j * at0 h j)
        0 := by
    intro h _
    have := hd fun i => ∑ j ∈ range n, A i j * at0 h j
    have hf : (fun t => V fun i => at0 d.control i + t * ∑ j ∈ range n, A i j * at0 h j) =
        fun t => V fun i : Fin n => ∑ j ∈ range n, A i j * (at0 x j + t * at0 h j) := by
      funext t
      congr 1
      funext i
      rw [hctl, l2 i i.2, mul_sum, ← sum_add_distrib]
      exact sum_congr rfl fun j _ => by ring
    rw [hf] at this
    refine this.congr_deriv ?_
    rw [Fin.sum_univ_eq_sum_range (fun i => at0 g i * ∑ j ∈ range n, A i j * at0 h j) n]
    simp only [mul_sum]
    rw [sum_comm]
    refine sum_congr rfl fun j hj => ?_
    rw [e3 j (mem_range.1 hj), sum_mul]
    exact sum_congr rfl fun i _ => by ring
  have hmd : d.meshMap = some m := by
    have := keeps_compute (fun _ => False) o b (fun _ _ _ _ _ => id)
    rw [hrun] at this
    rw [Same.map this, l3]
    exact hm
  by_cases hn : n = 0
  · refine ⟨g, _, exportData_gradZ (b := { d with gradsZ := upd d.gradsZ c g }) hat h0 ht hname hs ?_ gl, gl, ?_⟩
    · rw [hmd]
      unfold unmapGrad
      dsimp only
      rw [if_neg (by omega)]
      rfl
    · intro h hh
      have := key h hh
      subst hn
      simpa using this
  · refine ⟨v, _, exportData_gradZ (b := { d with gradsZ := upd (upd d.gradsZ c g) c v }) hat h0 ht hname hs ?_ e2, e2, key⟩
    rw [hmd]
    unfold unmapGrad
    dsimp only
    rw [if_pos (by omega), bind_run (lift_run_ok e1 _)]
    rfl

/-! ## Without a map -/

theorem upd_getD {f : Str → Option (List ℝ)} {c : Str} :
    ((upd f c ((f c).getD [])) c).getD [] = (f c).getD [] := by simp [upd]

theorem upd_upd {β : Type} {f : Str → Option β} {c : Str} {v : β} : upd (upd f c v) c v = upd f c v := by
  funext x; unfold upd; split_ifs <;> rfl

theorem exportField_repeat {a b : App S} {n : Str} {i : Int} {k : Nat} {v : Option (List ℝ)} (hm : a.meshMap = none)
    (h : exportField n k i a = .ok v b) : exportField n k i b = .ok v b := by
  have h' := h
  unfold exportField at h
  rw [bind_run (get_run a)] at h
  by_cases ht : n = sTopology
  · rw [if_pos ht] at h
    simp only [bind_ok, lift_ok, pure_ok] at h
    obtain ⟨_, _, ⟨_, rfl⟩, _, rfl⟩ := h
    exact h'
  · rw [if_neg ht] at h
    cases hz : a.gradZName n with
    | some c =>
      rw [hz, hm] at h
      simp only [bind_ok, lift_ok, pure_ok, modify_ok, unmapGrad] at h
      obtain ⟨_, _, rfl, g, _, ⟨rfl, rfl⟩, w, _, ⟨hw, rfl⟩, rfl, rfl⟩ := h
      unfold exportField
      rw [bind_run (get_run _), if_neg ht, hz]
      dsimp only
      rw [bind_run (modify_run _ _)]
      dsimp only
      rw [upd_getD, upd_upd, hm]
      simp only [unmapGrad]
      rw [bind_run (pure_run _ _), bind_run (lift_run_ok hw _)]
      rfl
    | none =>
      rw [hz] at h
      dsimp only at h
      split_ifs at h
      · simp only [bind_ok, lift_ok, pure_ok] at h
        obtain ⟨_, _, ⟨_, rfl⟩, _, _, ⟨_, rfl⟩, _, _, ⟨_, rfl⟩, _, rfl⟩ := h
        exact h'
      · simp only [bind_ok, lift_ok, pure_ok] at h
        obtain ⟨_, _, ⟨_, rfl⟩, _, _, ⟨_, rfl⟩, _, _, ⟨_, rfl⟩, _, rfl⟩ := h
        exact h'
      · simp only [bind_ok, lift_ok, pure_ok] at h
        obtain ⟨_, _, ⟨_, rfl⟩, _, _, ⟨_, rfl⟩, _, _, ⟨_, rfl⟩, _, rfl⟩ := h
        exact h'
      · simp only [bind_ok, lift_ok, pure_ok] at h
        obtain ⟨_, _, ⟨_, rfl⟩, _, _, ⟨_, rfl⟩, _, _, ⟨_, rfl⟩, _, rfl⟩ := h
        exact h'
      · rename_i s1 s2 s3 s4
        cases hx : a.gradXName n with
        | none =>
          rw [hx] at h
          simp only [pure_ok] at h
          obtain ⟨_, rfl⟩ := h
          exact h'
        | some c =>
          rw [hx] at h
          simp only [bind_ok, lift_ok, pure_ok, modify_ok] at h
          obtain ⟨_, _, rfl, w, _, ⟨hw, rfl⟩, w', _, ⟨hw', rfl⟩, rfl, rfl⟩ := h
          unfold exportField
          rw [bind_run (get_run _), if_neg ht, hz]
          dsimp only
          rw [if_neg s1, if_neg s2, if_neg s3, if_neg s4, hx]
          dsimp only
          rw [bind_run (modify_run _ _)]
          dsimp only
          rw [upd_getD, upd_upd, bind_run (lift_run_ok hw _), bind_run (lift_run_ok hw' _)]
          rfl

/-- **C93.**  Without a mesh map an export does not change what is exported next. -/
theorem C93_repeat {a b : App S} {n : Str} {l : Layout} {k : Nat} {v : Option (List ℝ)} (hm : a.meshMap = none)
    (h : exportData n l k a = .ok v b) : exportData n l k b = .ok v b := by
  unfold exportData at h
  rw [bind_ok] at h
  obtain ⟨⟨f, i⟩, a1, h1, h2⟩ := h
  rw [lift_ok] at h1
  obtain ⟨h1, rfl⟩ := h1
  unfold exportData
  rw [bind_run (lift_run_ok h1 b)]
  cases l with
  | field => exact exportField_repeat hm h2
  | scalar =>
    simp only [bind_ok, pure_ok] at h2 ⊢
    obtain ⟨w, b', h2, rfl, rfl⟩ := h2
    refine ⟨w, b', ?_, rfl, rfl⟩
    unfold exportValue at h2
    rw [bind_run (get_run a)] at h2
    cases hv : a.valueName f with
    | some c =>
      rw [hv] at h2
      simp only [pure_ok] at h2
      obtain ⟨rfl, rfl⟩ := h2
      unfold exportValue
      rw [bind_run (get_run a), hv]
      rfl
    | none =>
      rw [hv] at h2
      dsimp only at h2
      cases hw : a.vals f with
      | none => rw [hw] at h2; simp [throwErr] at h2
      | some u =>
        rw [hw] at h2
        simp only [bind_ok, modify_ok, pure_ok] at h2
        obtain ⟨_, _, rfl, rfl, rfl⟩ := h2
        unfold exportValue
        rw [bind_run (get_run _), hv]
        have hl : (u.take k ++ List.replicate (k - u.length) (0 : ℝ)).length = k := by simp; omega
        simp only [upd, if_true]
        rw [bind_run (modify_run _ _)]
        have hl' : (u.take k ++ List.replicate (k - u.length) (0 : ℝ)).take k ++
            List.replicate (k - (u.take k ++ List.replicate (k - u.length) (0 : ℝ)).length) 0 =
            u.take k ++ List.replicate (k - u.length) (0 : ℝ) := by
          rw [hl, List.take_of_length_le (by rw [hl])]
          simp
        rw [hl']
        show Out.ok _ _ = Out.ok _ _
        congr 2
        funext x
        exact congrFun upd_upd x

/-! ## What is false with a map -/

/-- The map that doubles, with two nodes. -/
noncomputable def double : MapFns := ⟨fun x => .ok (x.map (2 * ·)), fun x => .ok (x.map (2 * ·))⟩

theorem adj_double (n : Nat) : Adj double n fun i j => if i = j then 2 else 0 := by
  have h : ∀ x : List ℝ, x.length = n → ∀ i, i < n → at0 (x.map (2 * ·)) i = 2 * at0 x i := by
    intro x hx i hi
    rw [at0_eq (by simpa [hx] using hi), at0_eq (by omega)]
    simp
  refine ⟨fun x hx => ⟨_, rfl, by simpa using hx, fun i hi => ?_⟩, fun x hx => ⟨_, rfl, by simpa using hx, fun i hi => ?_⟩⟩
  · rw [h x hx i hi, sum_eq_single i] <;> simp +contextual [Ne.symm, hi]
  · rw [h x hx i hi, sum_eq_single i] <;> simp +contextual [hi]

/-- An operation that computes value and gradient of the criterion `c`, with the names `n` and `g`. -/
def critNode (o d : Str) : Node := ⟨o, some (.criterion ['c'] 0), d, [(sValue, ['n']), (sGradient, ['g'])], []⟩

/-- **C93, what is false.**  The exported gradient replaces the stored one: a second export of the same gradient, with
nothing in between, gives other numbers. -/
theorem C93_twice_false : ∃ (a b d e f : App toy) (v w : List ℝ),
    initApp [critNode ['p'] ['d']] { toyApp 2 with meshMap := some double } = .ok () a ∧
    importField sTopology [1, 1] a = .ok () b ∧ compute ['p'] b = .ok () d ∧
    exportData ['g'] .field 2 d = .ok (some v) e ∧ exportData ['g'] .field 2 e = .ok (some w) f ∧ v ≠ w := by
  refine ⟨_, _, _, _, _, _, _, rfl, rfl, rfl, rfl, rfl, ?_⟩
  intro h
  have h' : ([1, 1] : List ℝ).map (fun x => 2 * (1 * (1 * (2 * x)))) = ([1, 1] : List ℝ).map (fun x => 2 * (2 * (1 * (1 * (2 * x))))) := h
  norm_num at h'

/-- **C93, what is false.**  Export of the topology gives the mapped controls: an import of what was exported changes
the topology. -/
theorem C93_roundtrip_false : ∃ (a b d e : App toy) (v : List ℝ),
    initApp [critNode ['p'] ['d']] { toyApp 2 with meshMap := some double } = .ok () a ∧
    importField sTopology [1, 1] a = .ok () b ∧ exportData sTopology .field 2 b = .ok (some v) d ∧
    importField sTopology v d = .ok () e ∧ e.control ≠ d.control := by
  refine ⟨_, _, _, _, _, rfl, rfl, rfl, rfl, ?_⟩
  intro h
  have h' : ([1, 1] : List ℝ).map (fun x => 2 * (2 * x)) = ([1, 1] : List ℝ).map (fun x => 2 * x) := h
  norm_num at h'

/-- **C93, what is false.**  The gradient in a file depends on whether it was exported before. -/
theorem C93_file_false : ∃ (a b d e f k : App toy) (v : List ℝ),
    initApp [critNode ['p'] ['d'], ⟨['h'], some (.hdf5 [['g']]), ['d'], [], []⟩]
      { toyApp 2 with meshMap := some double } = .ok () a ∧
    importField sTopology [1, 1] a = .ok () b ∧ compute ['p'] b = .ok () d ∧ compute ['h'] d = .ok () e ∧
    exportData ['g'] .field 2 e = .ok (some v) f ∧ compute ['h'] f = .ok () k ∧ e.file ≠ k.file := by
  refine ⟨_, _, _, _, _, _, _, rfl, rfl, rfl, rfl, rfl, rfl, ?_⟩
  intro h
  have h' : [(['g'], ([1, 1] : List ℝ).map (fun x => 1 * (1 * (2 * x))))] =
      [(['g'], ([1, 1] : List ℝ).map (fun x => 2 * (1 * (1 * (2 * x)))))] := h
  norm_num at h'

/-- The hypotheses of `C93_gradient_partial` are met: two nodes, the map that doubles, criterion `½ Σ yᵢ²`. -/
example : ∃ (d e : App toy) (v : List ℝ), exportData ['g'] .field 2 d = .ok (some v) e ∧ v.length = 2 ∧
    ∀ h : List ℝ, h.length = 2 → HasDerivAt
      (fun t => (fun y : Fin 2 → ℝ => (y 0 * y 0 + y 1 * y 1) / 2)
        fun i => ∑ j ∈ range 2, (if (i : Nat) = j then 2 else 0) * (at0 [3, 5] j + t * at0 h j))
      (∑ j ∈ range 2, at0 v j * at0 h j) 0 := by
  obtain ⟨a, ha⟩ : ∃ a, initApp [critNode ['p'] ['d']] { toyApp 2 with meshMap := some double } = .ok () a := ⟨_, rfl⟩
  have := C93_gradient_partial (V := fun y : Fin 2 → ℝ => (y 0 * y 0 + y 1 * y 1) / 2) (a := a) (b := _) (d := _)
    (x := [3, 5]) (o := ['p']) (c := ['c']) (name := ['g']) (m := double) (op := _) (by cases ha; rfl) (adj_double 2) rfl
    (by cases ha; rfl) (by cases ha; rfl) rfl (by cases ha; rfl) (by cases ha; rfl) (by cases ha; rfl) (by simp) (by simp) (by decide) ?_
  · obtain ⟨v, e, h⟩ := this
    exact ⟨_, e, v, h⟩
  · intro p g p' hg hp
    cases ha
    have hp' : (2, (1 : ℝ)) = p' := Option.some.inj hp
    have hg' := Prod.mk.inj (Res.ok.inj hg)
    have h2 : p = p' := hg'.2
    subst hp'
    have h1 : ([3, 5] : List ℝ).map (fun x => p.2 * (1 * (2 * x))) = g := hg'.1
    clear hg hg' hp
    subst h2 h1
    refine ⟨rfl, fun k => ?_⟩
    have hf : (fun t => (fun y : Fin 2 → ℝ => (y 0 * y 0 + y 1 * y 1) / 2) fun i => at0 [6, 10] i + t * k i) = fun t =>
        ((6 + t * k 0) * (6 + t * k 0) + (10 + t * k 1) * (10 + t * k 1)) / 2 := rfl
    have key : HasDerivAt (fun t : ℝ => ((6 + t * k 0) * (6 + t * k 0) + (10 + t * k 1) * (10 + t * k 1)) / 2)
        (6 * k 0 + 10 * k 1) 0 := by
      have l : ∀ q r : ℝ, HasDerivAt (fun t : ℝ => q + t * r) r 0 := fun q r => by
        simpa using ((hasDerivAt_id (0 : ℝ)).mul_const r).const_add q
      refine ((((l 6 (k 0)).mul (l 6 (k 0))).add ((l 10 (k 1)).mul (l 10 (k 1)))).div_const 2).congr_deriv ?_
      ring
    have hc : ([3, 5] : List ℝ).map (fun x => 2 * x) = [6, 10] := by norm_num
    show HasDerivAt (fun t => (fun y : Fin 2 → ℝ => (y 0 * y 0 + y 1 * y 1) / 2)
      fun i => at0 (([3, 5] : List ℝ).map (fun x => 2 * x)) i + t * k i) _ 0
    rw [hc, hf]
    refine key.congr_deriv ?_
    norm_num [Fin.sum_univ_two, at0]

end Plato.Mpmd
