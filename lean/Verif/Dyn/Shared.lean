import Verif.Thermal.Track
import Verif.Mech.Rows

/-!
# Rows of nodal forces and of projected content

The rows that the stress divergence and the projection to the nodes add to a cell, for any number of
degrees of freedom per node: their work on a virtual field, and their evaluation with automatic
differentiation values.
-/

namespace Plato.Dyn
open Finset Plato Plato.Mech Plato.Thermal

/-- A loop over the cells whose body adds a row to its own cell; the invariant of the work views knows
which cells are finished. -/
theorem rowLoopD {R W : Type} [CommRing R] {nc : Nat} {order : List Nat} (hs : IsSchedule order nc)
    {I : Finset Nat → W → Prop} {w : W} (hw : I ∅ w) {result : V2 R} (δ : Nat → Nat → R)
    {body : Nat → W × V2 R → Res (W × V2 R)}
    (step : ∀ D c w out, c < nc → c ∉ D → I D w → out.d0 = result.d0 → out.d1 = result.d1 →
      (body c (w, out)).Sat fun s => I (insert c D) s.1 ∧ s.2 = out.row c (out.e c + δ c)) :
    (parFor order (w, result) body).Sat fun s => I (range nc) s.1 ∧ s.2 = addRows result nc δ := by
  refine (parFor_sched hs (fun D (s : W × V2 R) => I D s.1 ∧ s.2 = ⟨result.d0, result.d1, fun c =>
    if c ∈ D then result.e c + δ c else result.e c⟩) ⟨hw, by simp⟩ ?_).mono ?_
  · rintro D c ⟨w, out⟩ hc hD - ⟨hI, ho⟩
    dsimp only at hI ho
    have ho0 : out.d0 = result.d0 := by rw [ho]
    have ho1 : out.d1 = result.d1 := by rw [ho]
    refine (step D c w out hc hD hI ho0 ho1).mono ?_
    rintro s ⟨h1, h2⟩
    refine ⟨h1, ?_⟩
    rw [h2, ho]
    simp only [V2.row, V2.mk.injEq, true_and]
    funext r
    by_cases hne : r = c
    · simp [hne, hD]
    · simp [hne, mem_insert]
  · rintro s ⟨h1, h⟩
    exact ⟨h1, by simpa [addRows] using h⟩

section
variable {R : Type} [CommRing R]

/-- Nodal forces of a stress; `v` is the volume. -/
def stressRow (d ndof : Nat) (v : R) (σ : Nat → R) (G : Nat → Nat → R) : Nat → R :=
  ∑ i ∈ range d, ∑ n ∈ range (d + 1), Pi.single (n * ndof + i + 0) (1 * v * nodalForce d σ G n i)

/-- A content `f` with `m` components at the integration point, projected to the nodes. -/
def contentRow (d ndof m off : Nat) (B : Nat → R) (v : R) (f : Nat → R) : Nat → R :=
  ∑ n ∈ range (d + 1), ∑ i ∈ range m, Pi.single (ndof * n + i + off) (1 * B n * f i * v)

theorem stressDivergence_row {d ndof c : Nat} {T : V2 Nat} {out stress : V2 R} {g : V3 R}
    {vol : List R} (hd : d = 1 ∨ d = 2 ∨ d = 3) (hT0 : T.d0 = d) (hT1 : T.d1 = d)
    (hT : ∀ i j, i < d → j < d → T.e i j = voigtIndex d i j) (ho : c < out.d0)
    (ho1 : (d + 1) * ndof ≤ out.d1) (hoff : d ≤ ndof) (hs : c < stress.d0)
    (hs1 : stress.d1 = numVoigt d) (hg : c < g.d0) (hg1 : g.d1 = d + 1) (hg2 : g.d2 = d)
    (hv : c < vol.length) {σ : Nat → R} {G : Nat → Nat → R} {v : R}
    (hσ : ∀ t, t < numVoigt d → stress.e c t = σ t)
    (hG : ∀ n j, n < d + 1 → j < d → g.e c n j = G n j) (hvol : at0 vol c = v) :
    stressDivergence d ndof 0 T c out stress g vol 1 = .ok (out.row c (out.e c + stressRow d ndof v σ G)) := by
  have hp := stressDivergence_ok (off := 0) (1 : R) hd hT0 hT1 hT ho ho1 (by omega) hs hs1 hg hg1 hg2 hv (out.e c)
  rw [V2.row_self] at hp
  rw [hp, hvol]
  congr 3
  unfold stressRow
  refine sum_congr rfl fun i hi => sum_congr rfl fun n hn => ?_
  rw [nodalForce_congr hd (mem_range.1 hi) hσ fun j hj => hG n j (mem_range.1 hn) hj]

theorem projectN_row {d ndof m off c : Nat} {vol basis : List R} {state out : V2 R}
    (hc : c < out.d0) (hb : d + 1 ≤ basis.length) (hv : c < vol.length) (hs : c < state.d0)
    (hs1 : state.d1 = m) (h1 : ∀ n i, n < d + 1 → i < m → ndof * n + i + off < out.d1)
    {v : R} {f : Nat → R} (hf : ∀ i, i < m → state.e c i = f i) (hvol : at0 vol c = v) :
    projectN (d + 1) ndof off c vol basis state out 1 = .ok (out.row c (out.e c +
      contentRow d ndof m off (at0 basis) v f)) := by
  have hp := projectN_ok (scale := (1 : R)) hc hb hv hs (fun n i hn hi => h1 n i hn (hs1 ▸ hi)) (out.e c)
  rw [V2.row_self] at hp
  rw [hp, hs1, hvol]
  congr 3
  unfold contentRow
  refine sum_congr rfl fun n _ => sum_congr rfl fun i hi => ?_
  rw [hf i (mem_range.1 hi)]

theorem stressRow_work {d ndof : Nat} (hd : d = 1 ∨ d = 2 ∨ d = 3) (hdn : d ≤ ndof) (v : R) (σ : Nat → R)
    (G : Nat → Nat → R) (W : Nat → R) :
    ∑ l ∈ range ((d + 1) * ndof), stressRow d ndof v σ G l * W l =
      v * ∑ t ∈ range (numVoigt d), σ t * voigtStrain d (fun n i => W (n * ndof + i)) G t := by
  unfold stressRow
  simp only [Finset.sum_apply, sum_mul]
  rw [sum_comm, ← C45_virtual_work hd, mul_sum]
  refine sum_congr rfl fun i hi => ?_
  rw [sum_comm, mul_sum]
  refine sum_congr rfl fun n hn => ?_
  simp only [add_zero]
  rw [single_pairing (dof_lt (mem_range.1 hn) ((mem_range.1 hi).trans_le hdn))]
  ring

theorem contentRow_work {d ndof m off : Nat} (hm : m + off ≤ ndof) (B : Nat → R) (v : R) (f : Nat → R)
    (W : Nat → R) :
    ∑ l ∈ range ((d + 1) * ndof), contentRow d ndof m off B v f l * W l =
      v * ∑ i ∈ range m, f i * interp (d + 1) B fun n => W (ndof * n + i + off) := by
  unfold contentRow interp
  simp only [Finset.sum_apply, sum_mul, mul_sum]
  rw [sum_comm, sum_comm (s := range m)]
  refine sum_congr rfl fun n hn => ?_
  rw [sum_comm]
  refine sum_congr rfl fun i hi => ?_
  have hi' := mem_range.1 hi
  have : ndof * n + i + off < (d + 1) * ndof := by
    have := dof_lt (ndof := ndof) (i := i + off) (mem_range.1 hn) (by omega)
    rw [Nat.mul_comm ndof n]
    omega
  rw [single_pairing this]
  ring

end

section
variable {E : Type} [NormedAddCommGroup E] [NormedSpace ℝ E] {L : ℕ → E →L[ℝ] ℝ} {N : ℕ} {x : E}

theorem stressRow_tracks {d ndof : Nat} (hd : d = 1 ∨ d = 2 ∨ d = 3) {vF : Fad} {vR : E → ℝ} {σF : Nat → Fad}
    {σR : E → Nat → ℝ} {GF : Nat → Nat → Fad} {GR : E → Nat → Nat → ℝ} (hv : Tracks L N x vF vR)
    (hσ : ∀ t, t < numVoigt d → Tracks L N x (σF t) fun y => σR y t)
    (hG : ∀ n j, j < d → Tracks L N x (GF n j) fun y => GR y n j) (r : Nat) :
    Tracks L N x (stressRow d ndof vF σF GF r) fun y => stressRow d ndof (vR y) (σR y) (GR y) r := by
  unfold stressRow
  simp only [Finset.sum_apply]
  exact Tracks.sum _ fun i hi => Tracks.sum _ fun n _ => single_tracks
    ((Tracks.one.mul hv).mul (nodalForce_tracks hd (mem_range.1 hi) hσ fun j hj => hG n j hj))

theorem contentRow_tracks {d ndof m off : Nat} {BF : Nat → Fad} {B : Nat → ℝ} {vF : Fad} {vR : E → ℝ}
    {fF : Nat → Fad} {fR : E → Nat → ℝ} (hB : ∀ n, Tracks L N x (BF n) fun _ => B n) (hv : Tracks L N x vF vR)
    (hf : ∀ i, i < m → Tracks L N x (fF i) fun y => fR y i) (r : Nat) :
    Tracks L N x (contentRow d ndof m off BF vF fF r) fun y => contentRow d ndof m off B (vR y) (fR y) r := by
  unfold contentRow
  simp only [Finset.sum_apply]
  exact Tracks.sum _ fun n _ => Tracks.sum _ fun i hi => single_tracks
    (((Tracks.one.mul (hB n)).mul (hf i (mem_range.1 hi))).mul hv)

end

/-! ## Body loads -/

/-- Work of a body load on a cell: sum over the integration points of weight, determinant, intensity,
interpolated component of the virtual field and mean density. -/
noncomputable def cellLoad (L : BodyLoad ℝ) (d ndof c gc : Nat) (Z W : Nat → ℝ) : ℝ :=
  ∑ p ∈ range L.numPoints, at0 L.weights p * at0 L.det gc * at0 L.values (c * L.numPoints + p) *
    (∑ a ∈ range (d + 1), L.basis.e a p * W (a * ndof + L.dof)) * meanDensity (d + 1) Z

theorem loads_work {Ls : List (BodyLoad ℝ)} {d ndof : Nat} (hL : ∀ L ∈ Ls, L.dof < ndof) (c gc : Nat)
    (Z W : Nat → ℝ) :
    ∑ l ∈ range ((d + 1) * ndof), (Ls.map fun L => L.row d ndof c gc Z (-1)).sum l * W l =
      -(Ls.map fun L => cellLoad L d ndof c gc Z W).sum := by
  revert hL
  induction Ls with
  | nil => intro _; simp
  | cons L Ls ih =>
    intro hL
    rw [List.map_cons, List.map_cons, List.sum_cons, List.sum_cons,
      sum_congr rfl fun l _ => by rw [Pi.add_apply, add_mul], sum_add_distrib, ih fun M hM => hL M (List.mem_cons_of_mem _ hM), neg_add]
    congr 1
    unfold BodyLoad.row cellLoad
    simp only [Finset.sum_apply, sum_mul]
    rw [sum_comm, ← sum_neg_distrib]
    refine sum_congr rfl fun p _ => ?_
    rw [sum_comm, sum_congr rfl fun a ha => single_pairing (p := a * ndof + L.dof)
      (dof_lt (mem_range.1 ha) (hL L (List.mem_cons_self ..))) _ W, mul_sum, sum_mul, ← sum_neg_distrib]
    refine sum_congr rfl fun a _ => ?_
    ring

end Plato.Dyn
