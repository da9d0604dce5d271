import Verif.Plast.ProjectionMean

/-!
# C75: projection of linear pressures, bounds, stabilisation
-/

namespace Plato.Plast
open Finset Plato Plato.Mech Plato.Thermal Plato.Dyn
open Plato.J2 (dom localDofs atN_mem)

/-- The mesh with as many unknowns per node as dimensions, on which the gradient is projected. -/
def vecMesh (G : FeModel) : FeModel := { G with ndof := G.dim }

/-- The pressure of the nodes is a linear function of the coordinates. -/
def LinearPressure (M : FeModel) (ndof off : Nat) (state x : List ℝ) (a : ℝ) (b : Nat → ℝ) : Prop :=
  ∀ n, n < M.nn → at0 state (n * ndof + off) = a + ∑ j ∈ range M.dim, b j * at0 x (M.dim * n + j)

theorem slope_linear {P : Proj ℝ} (hd : P.d = 1 ∨ P.d = 2 ∨ P.d = 3) {X : Nat → Nat → ℝ} (hdet : detForm P.d X ≠ 0)
    {p b : Nat → ℝ} {a : ℝ} (hp : ∀ n, n < P.d + 1 → p n = a + ∑ j ∈ range P.d, b j * X n j) {k : Nat} (hk : k < P.d) :
    P.slope p X k = P.kappa * b k := by
  have hR := gradForm_reproduces hd X (by rwa [← detForm_eq hd])
  have := hR a (fun j => b j) ⟨k, hk⟩
  unfold Proj.slope
  rw [← show _ = b k from this, scalarField, sum_range]
  congr 1
  refine sum_congr rfl fun n _ => ?_
  rw [hp n n.2, sum_range]
  rfl

/-- A node of a cell with a positive weight and positive shape functions has a positive weight. -/
theorem weight_pos {M : FeModel} {P : Nat → Proj ℝ} {z x : List ℝ}
    (hB : ∀ k a, k < M.domains.length → a < M.npc → 0 < at0 (P k).basis a)
    (hm : ∀ k c, k < M.domains.length → c < M.size (M.part k) →
      0 < (P k).mass abs (M.cellZ z (gcell (M.part k) c)) (M.cellX x (gcell (M.part k) c)))
    {n k c a : Nat} (hk : k < M.domains.length) (hc : c < M.size (M.part k)) (ha : a < M.npc)
    (hn : cellNode M.npc M.c2n (gcell (M.part k) c) a = n) : 0 < cellSum M (share M P z x n) := by
  have h0 : ∀ k cell, k < M.domains.length → 0 ≤ hat M (at0 (P k).basis) cell n := fun k cell hk =>
    sum_nonneg fun a ha => by
      split_ifs
      · exact (hB k a hk (mem_range.1 ha)).le
      · exact le_rfl
  have h1 : 0 < hat M (at0 (P k).basis) (gcell (M.part k) c) n := by
    refine sum_pos' (fun a ha => ?_) ⟨a, mem_range.2 ha, by rw [if_pos hn]; exact hB k a hk ha⟩
    split_ifs
    · exact (hB k a hk (mem_range.1 ha)).le
    · exact le_rfl
  refine sum_pos' (fun k hk => sum_nonneg fun c hc => mul_nonneg (hm k c (mem_range.1 hk) (mem_range.1 hc)).le
    (h0 k _ (mem_range.1 hk))) ⟨k, mem_range.2 hk, sum_pos' (fun c hc => mul_nonneg (hm k c hk (mem_range.1 hc)).le (h0 k _ hk))
      ⟨c, mem_range.2 hc, mul_pos (hm k c hk hc) h1⟩⟩

section
variable {M : FeModel} (hM : M.Ok) {P : Nat → Proj ℝ} (h : ProjOk M P) {penF : Nat → Fad → Fad} {z x : List ℝ}
  (hB : ∀ k, k < M.domains.length → ∑ a ∈ range (M.dim + 1), at0 (P k).basis a = 1) (hnn : 0 < M.nn)
  {ndof off : Nat} (hoff : off < ndof) {state old : List ℝ} (hst : state.length = M.nn * ndof)
  (hold : old.length = M.nn * M.ndof) (hz : z.length = M.nn) (hx : x.length = M.nn * M.dim)
  (hgood : ∀ c, c < M.nc → projGood M P penF (M.cellZ z c) (M.cellX x c)) {S : ProjSched} (hS : S.Ok M)
include hM h hB hnn hoff hst hold hz hx hgood hS

/-- **C75**: the projected gradient of a linear pressure is its gradient, times the scaling of the pressure. -/
theorem C75_linear {κ a : ℝ} {b : Nat → ℝ} (hκ : ∀ k, k < M.domains.length → (P k).kappa = κ)
    (hlin : LinearPressure M ndof off state x a b) :
    (updateProjected M P penF ndof off S state z x old).Sat fun y => y.length = M.nn * M.dim ∧
      ∀ n i, n < M.nn → i < M.dim → cellSum M (share M P z x n) ≠ 0 → at0 y (n * M.dim + i) = κ * b i := by
  refine (C75_average hM h hB hnn hoff hst hold hz hx hgood hS).mono ?_
  rintro y ⟨hl, hy⟩
  refine ⟨hl, fun n i hn hi hw => ?_⟩
  have e := hy n i hn hi hw
  refine mul_right_cancel₀ hw (e.trans ?_)
  unfold cellSum
  rw [mul_sum]
  refine sum_congr rfl fun k hk => ?_
  rw [mul_sum]
  refine sum_congr rfl fun c hc => ?_
  have hk' := mem_range.1 hk
  have hcell := (hM.domOk k).1 c (mem_range.1 hc)
  have hd := h.d k hk'
  dsimp only
  rw [slope_linear (a := a) (b := b) (by rw [hd]; exact h.dim) (by rw [hd]; exact (hgood _ hcell).1) (fun m hm => by
    rw [hd]
    exact hlin _ (hM.mesh.node_lt hcell (by rw [FeModel.npc, ← hd]; exact hm))) (by rw [hd]; exact hi), hκ k hk', mul_comm]

/-- **C75**: with weights that are not negative, the projected gradient lies between bounds of the scaled gradients
of the cells. -/
theorem C75_bounds {i : Nat} (hi : i < M.dim) {lo hi' : ℝ} (hm : ∀ k c, k < M.domains.length → c < M.size (M.part k) →
      0 ≤ (P k).mass abs (M.cellZ z (gcell (M.part k) c)) (M.cellX x (gcell (M.part k) c)))
    (hb : ∀ k a, k < M.domains.length → a < M.npc → 0 ≤ at0 (P k).basis a)
    (hs : ∀ k c, k < M.domains.length → c < M.size (M.part k) →
      lo ≤ (P k).slope (fun a => at0 state (cellNode M.npc M.c2n (gcell (M.part k) c) a * ndof + off)) (M.cellX x (gcell (M.part k) c)) i ∧
      (P k).slope (fun a => at0 state (cellNode M.npc M.c2n (gcell (M.part k) c) a * ndof + off)) (M.cellX x (gcell (M.part k) c)) i ≤ hi') :
    (updateProjected M P penF ndof off S state z x old).Sat fun y =>
      ∀ n, n < M.nn → cellSum M (share M P z x n) ≠ 0 → lo ≤ at0 y (n * M.dim + i) ∧ at0 y (n * M.dim + i) ≤ hi' := by
  refine (C75_average hM h hB hnn hoff hst hold hz hx hgood hS).mono ?_
  rintro y ⟨hl, hy⟩ n hn hw
  have e := hy n i hn hi hw
  have h0 : ∀ k c, k < M.domains.length → c < M.size (M.part k) → 0 ≤ share M P z x n k (gcell (M.part k) c) := fun k c hk hc =>
    mul_nonneg (hm k c hk hc) (sum_nonneg fun a ha => by
      split_ifs
      · exact hb k a hk (mem_range.1 ha)
      · exact le_rfl)
  have hpos : 0 < cellSum M (share M P z x n) := lt_of_le_of_ne (sum_nonneg fun k hk => sum_nonneg fun c hc =>
    h0 k c (mem_range.1 hk) (mem_range.1 hc)) (Ne.symm hw)
  constructor
  · refine le_of_mul_le_mul_right (le_trans ?_ e.ge) hpos
    unfold cellSum
    rw [mul_sum]
    refine sum_le_sum fun k hk => ?_
    rw [mul_sum]
    refine sum_le_sum fun c hc => ?_
    rw [mul_comm]
    exact mul_le_mul_of_nonneg_left (hs k c (mem_range.1 hk) (mem_range.1 hc)).1 (h0 k c (mem_range.1 hk) (mem_range.1 hc))
  · refine le_of_mul_le_mul_right (le_trans e.le ?_) hpos
    unfold cellSum
    rw [mul_sum]
    refine sum_le_sum fun k hk => ?_
    rw [mul_sum]
    refine sum_le_sum fun c hc => ?_
    rw [mul_comm hi']
    exact mul_le_mul_of_nonneg_left (hs k c (mem_range.1 hk) (mem_range.1 hc)).2 (h0 k c (mem_range.1 hk) (mem_range.1 hc))

end

/-! ## Stabilisation -/

/-- Pressures that are linear in space have no stabilisation when the projected gradient is theirs. -/
theorem meshStab_zero {G : FeModel} (hG : G.Ok) {Q : Nat → Plast ℝ} (hQ : POk G Q) {κ a : ℝ} {b : Nat → ℝ}
    (hκ : ∀ k, k < G.domains.length → (Q k).kappa = κ) {off : Nat} (hoff : ∀ k, k < G.domains.length → (Q k).poff = off)
    (hlt : off < G.ndof)
    (hB : ∀ k, k < G.domains.length → ∑ a ∈ range (G.dim + 1), at0 (Q k).mat.basis a = 1) {A : GArgs ℝ}
    (hdet : J2.EachCell G fun _ cell => detForm G.dim (gNumbers G A cell).loc.x ≠ 0)
    (hlin : LinearPressure G G.ndof off A.loc.u A.loc.x a b)
    (hn : ∀ n i, n < G.nn → i < G.dim → at0 A.n (n * G.dim + i) = κ * b i) (h2 : ℝ → ℝ) (w : Nat → ℝ) :
    meshStab G Q h2 A w = 0 := by
  unfold meshStab
  refine sum_eq_zero fun k hk => sum_eq_zero fun c hc => ?_
  have hk' := mem_range.1 hk
  have hmem := atN_mem (mem_range.1 hc)
  have hcell : atN (dom G k) c < G.nc := J2.dom_lt hG hk' hmem
  have hd : (Q k).d = G.dim := hQ.j.d k hk'
  have hd3 : (Q k).d = 1 ∨ (Q k).d = 2 ∨ (Q k).d = 3 := by rw [hd]; exact .inr hQ.j.dim
  have hnd : (Q k).ndof = G.ndof := hQ.j.ndof k hk'
  have hdet' := hdet k hk' _ hmem
  unfold Plast.stabWork
  rw [sum_eq_zero, mul_zero, mul_zero]
  intro i hi
  rw [hd] at hi
  have e1 : (Q k).gradOf (Q k).poff (gNumbers G A (atN (dom G k) c)).loc.u (gNumbers G A (atN (dom G k) c)).loc.x i = b i := by
    unfold Plast.gradOf
    have := slope_linear (P := ⟨(Q k).d, [], 0, 1, fun _ => 0⟩) hd3 (X := (gNumbers G A (atN (dom G k) c)).loc.x)
      (by rw [show (⟨(Q k).d, [], 0, 1, fun _ => 0⟩ : Proj ℝ).d = (Q k).d from rfl, hd]; exact hdet')
      (p := fun n => (gNumbers G A (atN (dom G k) c)).loc.u (n * (Q k).ndof + (Q k).poff)) (a := a) (b := b) (fun n hnn => ?_)
      (k := i) (by show i < (Q k).d; rw [hd]; exact mem_range.1 hi)
    · unfold Proj.slope at this
      rw [one_mul, one_mul] at this
      exact this
    · dsimp only at hnn ⊢
      rw [hd] at hnn
      rw [hd, hnd, hoff k hk']
      have e := hlin _ (hG.mesh.node_lt hcell hnn)
      show at0 A.loc.u (cellDof G.npc G.ndof G.c2n _ (n * G.ndof + off)) = _
      unfold cellDof
      rw [Nat.mul_comm n, div_block hlt, mod_block hlt, Nat.mul_comm G.ndof, e]
      rfl
  have e2 : (Q k).projOf (gNumbers G A (atN (dom G k) c)).n i = κ * b i := by
    unfold Plast.projOf interp
    rw [sum_congr rfl fun n hnn => (?_ : _ = at0 (Q k).mat.basis n * (κ * b i)), ← sum_mul, hd, hB k hk', one_mul]
    rw [hd] at hnn ⊢
    have hpos := hG.dim
    have hlt := mem_range.1 hi
    show _ * at0 A.n (cellDof G.npc G.dim G.c2n _ (G.dim * n + 0 + i)) = _
    unfold cellDof
    rw [Nat.add_zero, div_block hlt, mod_block hlt, Nat.mul_comm G.dim,
      hn _ _ (hG.mesh.node_lt hcell (mem_range.1 hnn)) hlt]
  rw [e1, e2, hκ k hk', sub_self, zero_mul]

/-- **C75**: for a linear pressure the stabilisation of the next step does no work, whatever the length scale. -/
theorem C75_stabilisation {G : FeModel} (hG : G.Ok) {Q : Nat → Plast ℝ} (hQ : POk G Q) {P : Nat → Proj ℝ}
    (h : ProjOk (vecMesh G) P) {penF : Nat → Fad → Fad} {κ a : ℝ} {b : Nat → ℝ}
    (hκ : ∀ k, k < G.domains.length → (Q k).kappa = κ ∧ (P k).kappa = κ) {off : Nat} (hlt : off < G.ndof)
    (hoff : ∀ k, k < G.domains.length → (Q k).poff = off)
    (hB : ∀ k, k < G.domains.length → ∑ a ∈ range (G.dim + 1), at0 (Q k).mat.basis a = 1 ∧ ∑ a ∈ range (G.dim + 1), at0 (P k).basis a = 1)
    (hnn : 0 < G.nn) {A : GArgs ℝ} (hA : A.Ok G (localDofs G.dim)) {old : List ℝ} (hold : old.length = G.nn * G.dim)
    (hgood : ∀ c, c < G.nc → projGood (vecMesh G) P penF (G.cellZ A.loc.z c) (G.cellX A.loc.x c)) {S : ProjSched} (hS : S.Ok (vecMesh G))
    (hw : ∀ n, n < G.nn → cellSum (vecMesh G) (share (vecMesh G) P A.loc.z A.loc.x n) ≠ 0)
    (hlin : LinearPressure G G.ndof off A.loc.u A.loc.x a b) (h2 : ℝ → ℝ) (w : Nat → ℝ) :
    (updateProjected (vecMesh G) P penF G.ndof off S A.loc.u A.loc.z A.loc.x old).Sat fun y =>
      meshStab G Q h2 { A with n := y } w = 0 := by
  have hV : (vecMesh G).Ok := ⟨hG.dim, hG.dim, hG.mesh, hG.adj, hG.graph, hG.some_domain, hG.cells⟩
  refine (C75_linear hV h (fun k hk => (hB k hk).2) hnn hlt hA.loc.u hold hA.loc.z hA.loc.x hgood hS (fun k hk => (hκ k hk).2) hlin).mono ?_
  rintro y ⟨-, hy⟩
  refine meshStab_zero (A := { A with n := y }) hG hQ (fun k hk => (hκ k hk).1) hoff hlt (fun k hk => (hB k hk).1) ?_ hlin
    (fun n i hn hi => hy n i hn hi (hw n hn)) h2 w
  intro k hk cell hc
  exact (hgood cell (J2.dom_lt hG hk hc)).1

end Plato.Plast
