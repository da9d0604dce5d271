import Verif.Plast.Global
import Verif.J2.Props

/-!
# The residuals of all domains: evaluator and row of each cell
-/

namespace Plato.Plast
open Finset Plato Plato.Mech Plato.Thermal Plato.J2 Plato.Dyn
open Plato.Tm (fluxRow heatRow)

section Congr
variable {R : Type} [CommRing R] [Div R] {P : Plast R} (hd : P.d = 2 ∨ P.d = 3) {U U' C C' N N' Z Z' : Nat → R}
  {X X' : Nat → Nat → R} (hU : ∀ l, l < (P.d + 1) * P.ndof → U l = U' l)
  (hC : ∀ i, i < localDofs P.d → C i = C' i) (hN : ∀ l, l < (P.d + 1) * P.d → N l = N' l)
  (hZ : ∀ a, a < P.d + 1 → Z a = Z' a) (hX : ∀ a k, a < P.d + 1 → k < P.d → X a k = X' a k)

include hd hX in
theorem volOf_congr (fabs : R → R) : P.volOf fabs X = P.volOf fabs X' := by
  unfold Plast.volOf
  rw [detForm_congr (.inr hd) hX]

omit [Div R] in
include hU in
theorem valueOf_congr {off : Nat} (ho : off < P.ndof) : P.valueOf off U = P.valueOf off U' := by
  unfold Plast.valueOf
  refine interp_congr fun n hn => hU _ ?_
  rw [Nat.mul_comm P.ndof n]
  exact dof_lt hn ho

include hd hU hX in
theorem gradOf_congr {off k : Nat} (ho : off < P.ndof) (hk : k < P.d) : P.gradOf off U X k = P.gradOf off U' X' k := by
  unfold Plast.gradOf
  exact scalarField_congr (fun n hn => hU _ (dof_lt hn ho)) fun n _ => gradForm_congr (.inr hd) hX hk

include hZ in
theorem penOf_congr : P.penOf Z = P.penOf Z' := by
  unfold Plast.penOf
  rw [meanDensity_congr hZ]

include hd hU hC hX in
theorem elasticAt_congr {t : Nat} (ht : t < stressTerms P.d) : P.elasticAt U C X t = P.elasticAt U' C' X' t := by
  have hle := stressTerms_eq hd
  unfold Plast.elasticAt J2.elasticOf
  rw [total_congr hd hU hX, therm_congr hU, hC _ (by omega)]

include hd hU hC hZ hX in
theorem devOf_congr {t : Nat} (ht : t < stressTerms P.d) : P.devOf U C Z X t = P.devOf U' C' Z' X' t := by
  unfold Plast.devOf
  rw [penOf_congr hZ]
  exact devForm_congr hd (fun s hs => elasticAt_congr hd hU hC hX hs) ht

include hd hU hC hN hZ hX in
theorem solidRow_congr (fabs pow23 : R → R) :
    P.solidRow fabs pow23 U C N Z X = P.solidRow fabs pow23 U' C' N' Z' X' := by
  have hd' : P.d = 1 ∨ P.d = 2 ∨ P.d = 3 := .inr hd
  have hG : ∀ n k, k < P.d → gradForm P.d X n k = gradForm P.d X' n k := fun n k hk => gradForm_congr hd' hX hk
  have hnv : numVoigt P.d ≤ stressTerms P.d := J2.numVoigt_le hd
  have hp := P.poff_lt
  unfold Plast.solidRow
  rw [volOf_congr hd hX fabs]
  congr 1
  · congr 1
    · congr 1
      · congr 1
        · unfold stressRow
          refine sum_congr rfl fun i hi => sum_congr rfl fun n hn => ?_
          rw [nodalForce_congr hd' (mem_range.1 hi) (fun t ht => devOf_congr hd hU hC hZ hX (ht.trans_le hnv))
            fun j hj => hG n j hj]
        · by_cases hT : P.mat.thermal = true
          · rw [if_pos hT, if_pos hT]
            have hdn : P.d < P.ndof := by unfold Plast.ndof J2.ndof; rw [if_pos hT]; exact Nat.lt_add_of_pos_right (by omega)
            unfold fluxRow
            refine sum_congr rfl fun n hn => ?_
            rw [sum_congr rfl fun k hk => (by
              unfold Plast.fluxOf
              rw [penOf_congr hZ, gradOf_congr hd hU hX hdn (mem_range.1 hk), hG n k (mem_range.1 hk)] :
              -P.fluxOf U Z X k * gradForm P.d X n k = -P.fluxOf U' Z' X' k * gradForm P.d X' n k)]
          · rw [if_neg hT, if_neg hT]
      · unfold pressRow Plast.pressOf
        rw [valueOf_congr hU hp]
        exact sum_congr rfl fun k hk => sum_congr rfl fun n _ => by rw [hG n k (mem_range.1 hk)]
    · unfold fluxRow
      refine sum_congr rfl fun n hn => ?_
      rw [sum_congr rfl fun k hk => (by
        unfold Plast.stabOf Plast.projOf
        rw [penOf_congr hZ, gradOf_congr hd hU hX hp (mem_range.1 hk), hG n k (mem_range.1 hk), volOf_congr hd hX fabs,
          interp_congr fun n hn => hN (P.d * n + 0 + k) (by
            rw [Nat.mul_comm P.d n, Nat.add_zero]
            exact dof_lt hn (mem_range.1 hk))] :
        -P.stabOf fabs pow23 U N Z X k * gradForm P.d X n k = -P.stabOf fabs pow23 U' N' Z' X' k * gradForm P.d X' n k)]
  · have e : P.gapOf U Z X = P.gapOf U' Z' X' := by
      unfold Plast.gapOf Plast.divOf Plast.pressOf Plast.thermVolOf
      rw [penOf_congr hZ, valueOf_congr hU hp, sum_congr rfl fun k _ => total_congr hd hU hX k]
      by_cases hT : P.mat.thermal = true
      · have hdn : P.d < P.ndof := by unfold Plast.ndof J2.ndof; rw [if_pos hT]; exact Nat.lt_add_of_pos_right (by omega)
        rw [if_pos hT, if_pos hT, valueOf_congr hU hdn]
      · rw [if_neg hT, if_neg hT]
    rw [e]

include hZ in
theorem loadRow_congr (c gc : Nat) : P.loadRow c gc Z = P.loadRow c gc Z' := by
  unfold Plast.loadRow
  congr 1
  refine List.map_congr_left fun L _ => ?_
  unfold BodyLoad.row
  rw [meanDensity_congr hZ]

end Congr

section Ev
variable {R : Type} [CommRing R]

/-- What the residuals of the domains of a model need. -/
structure POk (M : FeModel) (P : Nat → Plast R) : Prop where
  j : JOk M fun k => (P k).mat
  loads : ∀ k, k < M.domains.length → ∀ L ∈ (P k).bodyLoads, BodyLoad.Ok L M.dim M.ndof (dom M k)

/-- Orders of the loops of the residuals. -/
def EvSched (M : FeModel) (eR : Nat → Nat → List Nat) : Prop :=
  ∀ k j, k < M.domains.length → IsSchedule (eR k j) (dom M k).length

/-- The residuals of the domains. -/
def plastEv [Div R] (fabs pow23 : R → R) (M : FeModel) (P : Nat → Plast R) (init : Nat → Nat → Nat → Nat)
    (eR : Nat → Nat → List Nat) : GlobalEv R := fun k w out => do
  let r ← (P k).evaluate fabs pow23 (init k) (eR k) (dom M k) w.loc.global w.loc.locl w.node w.loc.control w.loc.config out
  pure r.1

/-- Row of a cell. -/
def plastRow [Div R] (fabs pow23 : R → R) (M : FeModel) (P : Nat → Plast R) (k c : Nat) (D : GData R) : Nat → R :=
  (P k).row fabs pow23 c (atN (dom M k) c) D.loc.u D.loc.c D.n D.loc.z D.loc.x

omit [CommRing R] in
theorem gws_ok {M : FeModel} {P : Nat → Plast R} (h : POk M P) {k : Nat} (hk : k < M.domains.length) {n : Nat}
    {w : GlobalWs R} (hw : w.Ok M (localDofs M.dim) n) :
    GWs (P k) n w.loc.global w.loc.locl w.node w.loc.control w.loc.config := by
  have hdk : (P k).d = M.dim := h.j.d k hk
  have hnk : (P k).ndof = M.ndof := h.j.ndof k hk
  have hl := hw.loc
  exact ⟨hl.g0, by rw [hdk, hnk]; exact hl.g1.ge, hl.c0, by rw [hdk]; exact hl.c1, hw.n0, by rw [hdk]; exact hw.n1.ge, hl.z0,
    by rw [hdk]; exact hl.z1.ge, hl.x0, by rw [hdk]; exact hl.x1, by rw [hdk]; exact hl.x2⟩

theorem plastEv_rowAdd [Div R] (fabs pow23 : R → R) {M : FeModel} {P : Nat → Plast R} (h : POk M P)
    (init : Nat → Nat → Nat → Nat) {eR : Nat → Nat → List Nat} (he : EvSched M eR) :
    RowAdd M (localDofs M.dim) (plastEv fabs pow23 M P init eR) (plastRow fabs pow23 M P) := by
  intro k w out D hk hw h0 h1 hD
  have hdk : (P k).d = M.dim := h.j.d k hk
  have hnk : (P k).ndof = M.ndof := h.j.ndof k hk
  have hd : (P k).d = 2 ∨ (P k).d = 3 := by rw [hdk]; exact h.j.dim
  obtain ⟨v, e, -, -⟩ := evaluate_ok fabs pow23 (P := P k) hd (by rw [hdk]; exact h.j.basis k hk) (cells := dom M k)
    (gws_ok h hk hw) (by rw [hdk, hnk]; exact h.loads k hk) (fun j => he k j hk) (init k) (result := out) h0.ge
    (by rw [hdk, hnk, h1]; exact le_rfl)
  unfold plastEv
  rw [e, Res.ok_bind, Res.pure_eq, Res.sat_ok]
  refine ⟨h0, h1, fun c i hc hi => ?_⟩
  have hS := hD c hc
  show (if c < (dom M k).length then _ else _ : Nat → R) i = _
  rw [if_pos hc]
  show out.e c i + _ = _
  congr 1
  show ((P k).solidRow fabs pow23 (w.row c).loc.u (w.row c).loc.c (w.row c).n (w.row c).loc.z (w.row c).loc.x +
    (P k).loadRow c (atN (dom M k) c) (w.row c).loc.z) i = _
  unfold plastRow Plast.row
  rw [solidRow_congr hd (U := (w.row c).loc.u) (C := (w.row c).loc.c) (N := (w.row c).n) (Z := (w.row c).loc.z)
    (X := (w.row c).loc.x) (U' := (D c).loc.u) (C' := (D c).loc.c) (N' := (D c).n) (Z' := (D c).loc.z) (X' := (D c).loc.x)
    (by rw [hdk, hnk]; exact hS.loc.u) (by rw [hdk]; exact hS.loc.c) (by rw [hdk]; exact hS.n)
    (by rw [hdk]; exact hS.loc.z) (by rw [hdk]; exact hS.loc.x),
    loadRow_congr (Z := (w.row c).loc.z) (Z' := (D c).loc.z) (by rw [hdk]; exact hS.loc.z)]

end Ev

end Plato.Plast
