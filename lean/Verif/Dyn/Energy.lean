import Verif.Dyn.Props
import Mathlib.Analysis.Calculus.Deriv.Mul
import Mathlib.Analysis.Calculus.Deriv.MeanValue

/-!
# Balance of energy

C59: a motion that solves the equations of structural dynamics at all times gains energy only through the
loads, and loses it to the damping.
-/

namespace Plato.Dyn
open Finset Plato Plato.Mech Plato.Thermal

/-! ## Bilinear forms of finitely many components -/

section
variable {n : Nat} {B : (Nat → ℝ) → (Nat → ℝ) → ℝ}
  (hlin : ∀ a b p q w, B (fun l => a * p l + b * q l) w = a * B p w + b * B q w)
  (hcongr : ∀ p q w w', (∀ l, l < n → p l = q l) → (∀ l, l < n → w l = w' l) → B p w = B q w')
include hlin

theorem form_prefix (p w : Nat → ℝ) (m : Nat) :
    B (fun l => if l < m then p l else 0) w = ∑ i ∈ range m, p i * B (Pi.single i 1) w := by
  induction m with
  | zero =>
    have := hlin 0 0 (fun _ => 0) (fun _ => 0) w
    simp only [mul_zero, add_zero, zero_mul] at this
    simpa using this
  | succ m ih =>
    rw [sum_range_succ, ← ih]
    have := hlin 1 (p m) (fun l => if l < m then p l else 0) (Pi.single m 1) w
    rw [one_mul] at this
    rw [← this]
    congr 1
    funext l
    rcases lt_trichotomy l m with hl | hl | hl
    · rw [if_pos (by omega), if_pos hl, Pi.single_eq_of_ne (by omega)]
      ring
    · subst hl
      rw [if_pos (by omega), if_neg (by omega), Pi.single_eq_same]
      ring
    · rw [if_neg (by omega), if_neg (by omega), Pi.single_eq_of_ne (by omega)]
      ring

include hcongr

theorem form_sum (p w : Nat → ℝ) : B p w = ∑ i ∈ range n, p i * B (Pi.single i 1) w := by
  rw [← form_prefix hlin]
  exact hcongr _ _ _ _ (fun l hl => by rw [if_pos hl]) fun _ _ => rfl

variable (hsymm : ∀ p q, B p q = B q p)
include hsymm

theorem form_sum_sum (p w : Nat → ℝ) :
    B p w = ∑ i ∈ range n, ∑ j ∈ range n, p i * w j * B (Pi.single i 1) (Pi.single j 1) := by
  rw [form_sum hlin hcongr]
  refine sum_congr rfl fun i _ => ?_
  rw [hsymm, form_sum hlin hcongr, mul_sum]
  refine sum_congr rfl fun j _ => ?_
  rw [hsymm (Pi.single j 1)]
  ring

/-- Rate of change of a quadratic form along a motion. -/
theorem form_deriv {u v : ℝ → Nat → ℝ} {t : ℝ} (h : ∀ i, i < n → HasDerivAt (fun s => u s i) (v t i) t) :
    HasDerivAt (fun s => B (u s) (u s)) (2 * B (u t) (v t)) t := by
  have e : (fun s => B (u s) (u s)) = fun s => ∑ i ∈ range n, ∑ j ∈ range n,
      u s i * u s j * B (Pi.single i 1) (Pi.single j 1) := by
    funext s
    exact form_sum_sum hlin hcongr hsymm _ _
  have e2 : 2 * B (u t) (v t) = ∑ i ∈ range n, ∑ j ∈ range n,
      (v t i * u t j + u t i * v t j) * B (Pi.single i 1) (Pi.single j 1) := by
    simp only [add_mul, sum_add_distrib]
    rw [← form_sum_sum hlin hcongr hsymm, ← form_sum_sum hlin hcongr hsymm, hsymm (v t)]
    ring
  rw [e, e2]
  exact HasDerivAt.fun_sum fun i hi => HasDerivAt.fun_sum fun j hj =>
    ((h i (mem_range.1 hi)).mul (h j (mem_range.1 hj))).mul_const _

end

section
variable {M : FeModel} (hM : M.Ok) {P : Nat → Dyn ℝ} (h : DynOk M P) {init : Nat → Nat → Nat → Nat}
  {eR : Nat → Nat → List Nat} (heR : ∀ k j, IsSchedule (eR k j) (M.size (M.part k)))
  (hsym : ∀ k t s, t < numVoigt (P k).el.d → s < numVoigt (P k).el.d → (P k).el.stiff t s = (P k).el.stiff s t)
  {z x : List ℝ} (hz : z.length = M.nn) (hx : x.length = M.nn * M.dim)
  {sch : ℝ → Nat → Nat → List Nat} (hs : ∀ t, HypSchedOk M (sch t) (M.npc * M.ndof))
  {u v a : ℝ → Fin (M.nn * M.ndof) → ℝ} (hu : ∀ t i, HasDerivAt (fun s => u s i) (v t i) t)
  (hv : ∀ t i, HasDerivAt (fun s => v s i) (a t i) t)
  (hres : ∀ t, (hypValue M (dynamics abs M P init eR) (sch t) (List.ofFn (u t)) (List.ofFn (v t))
    (List.ofFn (a t)) z x).Sat fun r => ∀ q, at0 r q = 0 ∨ at0 (List.ofFn (v t)) q = 0)

/-- Energy of a motion: strain energy and kinetic energy. -/
noncomputable def totalEnergy (M : FeModel) (P : Nat → Dyn ℝ) (z x : List ℝ) (u v : List ℝ) : ℝ :=
  1 / 2 * energyForm M (fun k => (P k).el) z x (at0 u) (at0 u) + 1 / 2 * massForm M P z x (at0 v) (at0 v)

include hM h heR hsym hz hx hs hu hv hres

/-- **C59**, balance of energy: along a motion whose residual vanishes at every degree of freedom that moves
(those held fixed may carry a reaction), the rate of strain energy and kinetic energy is the power of the
reference strains and the body loads less the power of the damping. -/
theorem C59_energy (t : ℝ) :
    HasDerivAt (fun s => totalEnergy M P z x (List.ofFn (u s)) (List.ofFn (v s)))
      (preWork M (fun k => (P k).el) z x (at0 (List.ofFn (v t))) +
        loadWork M (fun k => (P k).el.bodyLoads) z (at0 (List.ofFn (v t))) -
        dampingForm M P z x (at0 (List.ofFn (v t))) (at0 (List.ofFn (v t)))) t := by
  obtain ⟨r, er, h0⟩ := hres t
  obtain ⟨r', er', -, hw⟩ := C59_work hM h (init := init) heR (List.length_ofFn (f := u t))
    (List.length_ofFn (f := v t)) (List.length_ofFn (f := a t)) hz hx (hs t)
  rw [er] at er'
  cases er'
  have hw := hw (at0 (List.ofFn (v t)))
  rw [sum_eq_zero fun q _ => by rcases h0 q with e | e <;> rw [e] <;> ring] at hw
  have d1 := form_deriv (n := M.nn * M.ndof) (B := energyForm M (fun k => (P k).el) z x)
    (fun a b p q w => energyForm_lin a b p q w) (fun p q w w' h1 h2 => energyForm_congr hM h.el h1 h2)
    (energyForm_symm hsym) (u := fun s => at0 (List.ofFn (u s))) (v := fun s => at0 (List.ofFn (v s))) (t := t)
    (fun i hi => by
      have e : ∀ y : Fin (M.nn * M.ndof) → ℝ, at0 (List.ofFn y) i = y ⟨i, hi⟩ := fun y => by
        rw [at0_eq (by rw [List.length_ofFn]; exact hi), List.getElem_ofFn]
      simp only [e]
      exact hu t _)
  have d2 := form_deriv (n := M.nn * M.ndof) (B := massForm M P z x)
    (fun a b p q w => massForm_lin a b p q w) (fun p q w w' h1 h2 => massForm_congr hM h h1 h2)
    massForm_symm (u := fun s => at0 (List.ofFn (v s))) (v := fun s => at0 (List.ofFn (a s))) (t := t)
    (fun i hi => by
      have e : ∀ y : Fin (M.nn * M.ndof) → ℝ, at0 (List.ofFn y) i = y ⟨i, hi⟩ := fun y => by
        rw [at0_eq (by rw [List.length_ofFn]; exact hi), List.getElem_ofFn]
      simp only [e]
      exact hv t _)
  refine ((d1.const_mul (1 / 2)).add (d2.const_mul (1 / 2))).congr_deriv ?_
  rw [massForm_symm (at0 (List.ofFn (v t)))]
  linarith

/-- **C59**: without reference strains and body loads, with non-negative Rayleigh coefficients, densities and
penalties and a positive semidefinite stiffness, the energy never grows. -/
theorem C59_energy_antitone (hpre : ∀ k s, (P k).el.refStrain s = 0) (hload : ∀ k, (P k).el.bodyLoads = [])
    (hw : ∀ k, k < M.domains.length → 0 ≤ (P k).el.cubWeight)
    (hp : ∀ k c, k < M.domains.length → c < M.size (M.part k) →
      0 ≤ (P k).el.pen (meanDensity ((P k).el.d + 1) (M.cellZ z (gcell (M.part k) c))))
    (hr : ∀ k, k < M.domains.length → 0 ≤ (P k).density)
    (hC : ∀ k e, k < M.domains.length → 0 ≤ voigtEnergy (P k).el e)
    (hA : ∀ k, k < M.domains.length → 0 ≤ (P k).rayA) (hB : ∀ k, k < M.domains.length → 0 ≤ (P k).rayB) :
    Antitone fun s => totalEnergy M P z x (List.ofFn (u s)) (List.ofFn (v s)) := by
  have hd := C59_energy hM h heR hsym hz hx hs hu hv hres
  refine antitone_of_deriv_nonpos (fun t => (hd t).differentiableAt) fun t => ?_
  rw [(hd t).deriv]
  have e1 : preWork M (fun k => (P k).el) z x (at0 (List.ofFn (v t))) = 0 := by
    unfold preWork cellPre
    simp only [hpre, zero_mul, sum_const_zero, mul_zero]
  have e2 : loadWork M (fun k => (P k).el.bodyLoads) z (at0 (List.ofFn (v t))) = 0 := by
    unfold loadWork
    simp only [hload, List.map_nil, List.sum_nil, sum_const_zero]
  have e3 : 0 ≤ dampingForm M P z x (at0 (List.ofFn (v t))) (at0 (List.ofFn (v t))) :=
    meshForm_nonneg fun k c hk hc => add_nonneg
      (mul_nonneg (hB k hk) (cellEnergy_nonneg (hw k hk) (hp k c hk hc) (fun e => hC k e hk) _))
      (mul_nonneg (hA k hk) (cellMass_nonneg (P k) (hw k hk) (hp k c hk hc) (hr k hk) _))
  linarith

/-- **C59**: without damping, reference strains and body loads the energy is conserved. -/
theorem C59_energy_conserved (hpre : ∀ k s, (P k).el.refStrain s = 0) (hload : ∀ k, (P k).el.bodyLoads = [])
    (hA : ∀ k, k < M.domains.length → (P k).rayA = 0) (hB : ∀ k, k < M.domains.length → (P k).rayB = 0)
    (t t' : ℝ) : totalEnergy M P z x (List.ofFn (u t)) (List.ofFn (v t)) =
      totalEnergy M P z x (List.ofFn (u t')) (List.ofFn (v t')) := by
  have hd := C59_energy hM h heR hsym hz hx hs hu hv hres
  refine is_const_of_deriv_eq_zero (f := fun s => totalEnergy M P z x (List.ofFn (u s)) (List.ofFn (v s)))
    (fun t => (hd t).differentiableAt) (fun t => ?_) t t'
  rw [(hd t).deriv, dampingForm_eq hA hB]
  unfold preWork cellPre loadWork
  simp only [hpre, hload, zero_mul, sum_const_zero, mul_zero, List.map_nil, List.sum_nil, add_zero, sub_zero]

end

end Plato.Dyn
