import Verif.Cond.Plastic
import Verif.J2.ExampleInverse
import Verif.Plast.ExampleGradient
import Verif.HeatBnd.Props

/-!
# C86: a square in plastic flow meets the hypotheses
-/

namespace Plato.Cond
open Finset Plato Plato.Mech Plato.J2 Plato.Plast

/-- The square of J2 plasticity with isotropic hardening. -/
noncomputable def slabP : Plast ℝ := ⟨slabH 1, 1 / 2, 1, 1, 0, id, [], 1⟩

theorem slabP_ok : POk Tm.slab fun _ => slabP := ⟨slabH_ok 1, fun _ _ _ hL => absurd hL List.not_mem_nil⟩

/-- A traction on the edge from node 1 to node 3. -/
noncomputable def slabB : Loads := { triB with F := HeatBnd.quadFaces, mech := [.load [3] fun k => k] }

theorem slabB_ok : LoadsOk Tm.slab slabP slabB where
  mech := by
    refine ⟨?_, by decide, ?_⟩
    · intro B hB
      have hB : B = .load [3] fun k => k := by simpa [slabB] using hB
      subst hB
      exact HeatBnd.square_facesOk
    · intro B hB hp
      have hB : B = .load [3] fun k => k := by simpa [slabB] using hB
      subst hB
      exact absurd hp id
  heat := ⟨fun _ hB => (List.not_mem_nil hB).elim, by decide, fun _ hB => (List.not_mem_nil hB).elim⟩
  cub := triB_ok.cub
  orders := by
    intro b C hC
    match b, hC with
    | 0, hC =>
      have hC : C = .load [3] fun k => k := by simpa [slabB] using hC.symm
      subst hC
      exact List.Perm.refl _
    | b + 1, hC => simp [slabB] at hC
  ordersT := fun b C hC => by simp [slabB, triB] at hC
  pressure := by
    intro _ C hC
    have hC : C = .load [3] fun k => k := by simpa [slabB] using hC
    subst hC
    rfl

def slabSch (k j : Nat) : List Nat :=
  if j = 7 then (if k < 2 then List.range 9 else List.range 18) else if k < 2 then [0] else [0, 1]

def slabQ : PSched where
  eR _ _ := [0]
  sch := slabSch
  eF _ _ := [0]
  schF _ _ := [0]
  ord _ := [0]
  schL _ _ := [0]
  ordF _ := [0]
  schLF _ _ := [0]
  create := List.range 4

theorem slabQ_ok : slabQ.Ok Tm.slab where
  eR k j hk := slab_ord k hk
  sch := by
    refine ⟨fun k j hk hj => ?_, fun j hj => ?_⟩
    · have hk : k < 2 := hk
      show IsSchedule (slabSch k j) _
      unfold slabSch
      rw [if_neg (by omega), if_pos hk]
      exact slab_ord k hk
    · show IsSchedule (slabSch 2 j) _
      unfold slabSch
      rw [if_neg (by omega)]
      exact List.Perm.refl _
  add := by
    refine ⟨fun k hk => ?_, List.Perm.refl _⟩
    have hk : k < 2 := hk
    interval_cases k <;> exact List.Perm.refl _
  eF k j hk := slab_ord k hk
  schF k j hk _ := slab_ord k hk
  ord := slab_ord
  schL := slab_sched
  ordF := slab_ord
  schLF := slab_sched

def slabS : Sched where
  cell _ := List.range 2
  dofs i := if i < 4 then List.range 12 else List.range 8
  create := List.range 4
  rows := List.range 4
  prod := List.range 4
  jac := List.range 162
  vec _ := List.range 18
  grad := List.range 6

theorem slabS_ok : slabS.Ok Tm.slab where
  cell _ := List.Perm.refl _
  dofs i hi := by
    show (if i < 4 then _ else _ : List Nat).Perm _
    rw [if_pos hi]
    exact List.Perm.refl _
  dofs4 := List.Perm.refl _
  create := List.Perm.refl _
  rows := List.Perm.refl _
  prod := List.Perm.refl _
  jac := List.Perm.refl _
  vec _ := List.Perm.refl _

noncomputable def slabF : FState := ⟨⟨slabC, List.replicate 8 0⟩, List.replicate 4 0, 0⟩

theorem slab_regular (cell : Nat) (hc : cell < 2) :
    Plast.Regular slabP (fun a => a) pow23F pow23 (gNumbers Tm.slab slabF.g cell) where
  det := slab_det2 cell hc
  pen := penOk_id _
  bulk := mul_ne_zero (ne_of_eq_of_ne (slab_density cell hc) one_ne_zero) one_ne_zero
  shear := by norm_num [slabP, slabH, slabJ]
  pow := pow23_ok (mul_pos (abs_pos.2 (slab_det2 cell hc)) (by norm_num [slabP]))

theorem slab_flow (cell : Nat) (hc : cell < 2) (_ : 0 < at0 slabC.c (cell * localDofs Tm.slab.dim + 1)) :
    Smooth slabP.mat (fun a => a) (fun a => a) (numbers Tm.slab slabC cell) ∧
      J2.Regular slabP.mat (numbers Tm.slab slabC cell) ∧ 0 < (matOf Tm.slab (fun _ => slabP.mat) slabC cell cell).K := by
  have h := slabC_smooth 1 zero_le_one cell hc
  exact ⟨h.1, h.2.1, lt_of_lt_of_eq one_pos h.2.2.symm⟩

theorem slab_matP (cell : Nat) (hc : cell < 2) : (matOf Tm.slab (fun _ => slabP.mat) slabC cell cell).Ok := by
  have h : meanDensity 3 (numbers Tm.slab slabC cell).z = 1 := slab_density cell hc
  constructor <;> simp only [matOf, J2.mat, slabP, slabH, slabJ, id] <;> rw [h] <;> norm_num

theorem slab_hard (cell : Nat) (hc : cell < 2) : 0 < (matOf Tm.slab (fun _ => slabP.mat) slabC cell cell).K :=
  lt_of_lt_of_eq one_pos (slabC_smooth 1 zero_le_one cell hc).2.2.symm

/-- Both cells of the square flow; the solver's system is the Newton system of residuals and local equations. -/
example := C86_newton_plasticity (S := slabS) (A := slabF) (out := zero3 Tm.slab 10 10) (init := fun _ _ _ => 0)
  (u := fun i => slabC.u[i.1]) (c := fun i => slabC.c[i.1])
  Tm.slab_ok slab_blocks slab_cov (by decide) slabP_ok (slabH_consts 1) (B := fun _ => slabB)
  (pE := fun _ a => a) (pP := fun _ a => a) (pF := fun _ a => a) (powF := pow23F) (pow23 := pow23) slabB_ok slabQ_ok
  slabS_ok rfl ⟨slabC_ok, by simp [slabF, Tm.slab]⟩ (by simp [slabF, slabC, slabA, Tm.slab]) (by simp [slabF, slabC, Tm.slab, localDofs])
  (slab_each (slab_regular 0 (by omega)) (slab_regular 1 (by omega)))
  (slab_each (slab_flow 0 (by omega)) (slab_flow 1 (by omega))) ⟨rfl, rfl, rfl⟩

/-- The hypotheses on geometry and material hold for the square. -/
example := C86_newton_iteration (S := slabS) (A := slabF) (out := zero3 Tm.slab 10 10) (init := fun _ _ _ => 0)
  (u := fun i => slabC.u[i.1])
  Tm.slab_ok slab_blocks slab_cov (by decide) slabP_ok (slabH_consts 1) (B := fun _ => slabB)
  (pE := fun _ a => a) (pP := fun _ a => a) (pF := fun _ a => a) (powF := pow23F) (pow23 := pow23) slabB_ok slabQ_ok
  slabS_ok ⟨slabC_ok, by simp [slabF, Tm.slab]⟩ (by simp [slabF, slabC, slabA, Tm.slab])
  (slab_each (slab_regular 0 (by omega)) (slab_regular 1 (by omega)))
  (slab_each ⟨slab_matP 0 (by omega), slab_hard 0 (by omega)⟩ ⟨slab_matP 1 (by omega), slab_hard 1 (by omega)⟩)
  (slab_each (slab_state _) (slab_state _)) (slab_each ⟨penOk_id _, penOk_id _⟩ ⟨penOk_id _, penOk_id _⟩) slab_ord slab_sched
  ⟨rfl, rfl, rfl⟩

end Plato.Cond
