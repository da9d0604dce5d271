import Verif.Plast.Balance

/-!
# C73: scaling of pressure and temperature is a change of unknowns
-/

namespace Plato.Plast
open Finset Plato Plato.Mech Plato.Thermal Plato.J2 Plato.Dyn
open Plato.Bnd hiding Add

/-! ## Specification -/

/-- Unknowns multiplied with a factor for each kind, numbers of nodes with `ndof` unknowns each. -/
def scaled (ndof : Nat) (s : Nat → ℝ) (U : Nat → ℝ) (l : Nat) : ℝ := s (l % ndof) * U l

/-- The same for a list. -/
def scaledList (ndof : Nat) (s : Nat → ℝ) (u : List ℝ) : List ℝ := u.mapIdx fun q a => s (q % ndof) * a

/-- Pressure and temperature are the unknowns times these factors. -/
def Plast.factor (P : Plast ℝ) (i : Nat) : ℝ :=
  if i = P.poff then P.kappa else if P.mat.thermal ∧ i = P.d then P.mat.tscale else 1

/-- Factors of the equations. -/
def Plast.weight (P : Plast ℝ) (i : Nat) : ℝ := if i = P.poff then P.kappa else 1

/-- The same material without scaling. -/
def Plast.unscaled (P : Plast ℝ) : Plast ℝ := { P with kappa := 1, mat := { P.mat with tscale := 1 } }

/-! ## Cells -/

theorem at0_scaledList (ndof : Nat) (s : Nat → ℝ) (u : List ℝ) (q : Nat) :
    at0 (scaledList ndof s u) q = scaled ndof s (at0 u) q := by
  unfold at0 scaledList scaled
  rw [List.getElem?_mapIdx]
  cases h : u[q]? <;> simp [h]

theorem dofs_scaled (M : FeModel) (s u : Nat → ℝ) (cell : Nat) :
    dofs M (scaled M.ndof s u) cell = scaled M.ndof s (dofs M u cell) := by
  funext l
  unfold dofs scaled cellDof
  rw [Nat.mul_add_mod, Nat.mod_mod]

section Cell
variable {P : Plast ℝ} {s : Nat → ℝ}

theorem scaled_node {ndof n i : Nat} (hi : i < ndof) (U : Nat → ℝ) :
    scaled ndof s U (n * ndof + i) = s i * U (n * ndof + i) := by
  unfold scaled
  rw [Nat.mul_comm n, Nat.mul_add_mod, Nat.mod_eq_of_lt hi]

theorem valueOf_scaled {off : Nat} (ho : off < P.ndof) (U : Nat → ℝ) :
    P.valueOf off (scaled P.ndof s U) = s off * P.valueOf off U := by
  unfold Plast.valueOf interp
  rw [mul_sum]
  refine sum_congr rfl fun n _ => ?_
  dsimp only
  rw [Nat.mul_comm P.ndof n, scaled_node ho]
  ring

theorem gradOf_scaled {off : Nat} (ho : off < P.ndof) (U : Nat → ℝ) (X : Nat → Nat → ℝ) (k : Nat) :
    P.gradOf off (scaled P.ndof s U) X k = s off * P.gradOf off U X k := by
  unfold Plast.gradOf scalarField
  rw [mul_sum]
  refine sum_congr rfl fun n _ => ?_
  dsimp only
  rw [scaled_node ho]
  ring

theorem smallStrain_scaled (hs : ∀ i, i < P.d → s i = 1) (U : Nat → ℝ) (X : Nat → Nat → ℝ) :
    smallStrain P.d P.ndof (scaled P.ndof s U) X = smallStrain P.d P.ndof U X := by
  have hle := P.le_ndof
  funext i j
  unfold smallStrain fieldGrad
  by_cases h : i.1 < P.d ∧ j.1 < P.d
  · rw [if_pos h, if_pos h]
    congr 2
    · exact sum_congr rfl fun n _ => by dsimp only; rw [scaled_node (h.1.trans_le hle), hs _ h.1, one_mul]
    · exact sum_congr rfl fun n _ => by dsimp only; rw [scaled_node (h.2.trans_le hle), hs _ h.2, one_mul]
  · rw [if_neg h, if_neg h]

theorem Plast.lt_poff {i : Nat} (hi : i < P.d) : i ≠ P.poff := by
  unfold Plast.poff
  split <;> omega

theorem factor_disp {i : Nat} (hi : i < P.d) : P.factor i = 1 := by
  unfold Plast.factor
  rw [if_neg (P.lt_poff hi), if_neg (fun h => by omega)]

theorem factor_press : P.factor P.poff = P.kappa := if_pos rfl

theorem factor_temp (hT : P.mat.thermal = true) : P.factor P.d = P.mat.tscale := by
  unfold Plast.factor Plast.poff
  rw [if_pos hT, if_neg (by omega), if_pos ⟨hT, rfl⟩]

theorem weight_disp {i : Nat} (hi : i < P.d) : P.weight i = 1 := if_neg (P.lt_poff hi)

theorem weight_press : P.weight P.poff = P.kappa := if_pos rfl

theorem weight_temp (hT : P.mat.thermal = true) : P.weight P.d = 1 := by
  unfold Plast.weight Plast.poff
  rw [if_pos hT, if_neg (by omega)]

theorem therm_scaled (U : Nat → ℝ) : P.unscaled.mat.therm (scaled P.ndof P.factor U) = P.mat.therm U := by
  unfold J2.therm
  show (if P.mat.thermal = true then _ else _) = _
  by_cases hT : P.mat.thermal = true
  · rw [if_pos hT, if_pos hT]
    have hdn : P.d < P.ndof := by unfold Plast.ndof J2.ndof; rw [if_pos hT]; exact Nat.lt_add_of_pos_right (by omega)
    suffices e : P.unscaled.mat.temp (scaled P.ndof P.factor U) = P.mat.temp U by rw [e]; rfl
    unfold J2.temp
    show (∑ n ∈ range (P.d + 1), scaled P.ndof P.factor U (n * P.ndof + P.d) * at0 P.mat.basis n) * 1 = _
    rw [mul_one, sum_mul]
    refine sum_congr rfl fun n _ => ?_
    rw [scaled_node hdn, factor_temp hT]
    show _ = U (n * P.ndof + P.d) * at0 P.mat.basis n * P.mat.tscale
    ring
  · rw [if_neg hT, if_neg hT]

/-- Work in a cell on scaled unknowns and virtual unknowns. -/
theorem cellWork_scaled (pow23 : ℝ → ℝ) (U C N Z : Nat → ℝ) (X : Nat → Nat → ℝ) (W : Nat → ℝ) :
    P.cellWork pow23 U C N Z X W =
      P.unscaled.cellWork pow23 (scaled P.ndof P.factor U) C N Z X (scaled P.ndof P.weight W) := by
  have hp := P.poff_lt
  have e1 : P.unscaled.stressDev (scaled P.ndof P.factor U) C Z X = P.stressDev U C Z X := by
    unfold Plast.stressDev J2.mechStrain
    rw [therm_scaled]
    show _ • deviator (smallStrain P.d P.ndof (scaled P.ndof P.factor U) X - _ - _) = _
    rw [smallStrain_scaled fun i hi => factor_disp hi]
    rfl
  have e2 : smallStrain P.unscaled.d P.unscaled.ndof (scaled P.ndof P.weight W) X = smallStrain P.d P.ndof W X :=
    smallStrain_scaled (P := P) (s := P.weight) (fun i hi => weight_disp hi) W X
  have e3 : smallStrain P.unscaled.d P.unscaled.ndof (scaled P.ndof P.factor U) X = smallStrain P.d P.ndof U X :=
    smallStrain_scaled (P := P) (s := P.factor) (fun i hi => factor_disp hi) U X
  have v1 : P.unscaled.valueOf P.unscaled.poff (scaled P.ndof P.factor U) = P.kappa * P.valueOf P.poff U := by
    rw [← factor_press]; exact valueOf_scaled hp U
  have v2 : P.unscaled.valueOf P.unscaled.poff (scaled P.ndof P.weight W) = P.kappa * P.valueOf P.poff W := by
    rw [← weight_press]; exact valueOf_scaled hp W
  have g1 : ∀ k, P.unscaled.gradOf P.unscaled.poff (scaled P.ndof P.factor U) X k = P.kappa * P.gradOf P.poff U X k := by
    intro k; rw [← factor_press]; exact gradOf_scaled hp U X k
  have g2 : ∀ k, P.unscaled.gradOf P.unscaled.poff (scaled P.ndof P.weight W) X k = P.kappa * P.gradOf P.poff W X k := by
    intro k; rw [← weight_press]; exact gradOf_scaled hp W X k
  unfold Plast.cellWork
  dsimp only
  rw [e1, e2, e3, v1, v2]
  simp only [g1, g2]
  show _ = |detForm P.d X| * P.cubWeight * (_ + 1 * _ * _ + 1 * _ * (_ - (if P.mat.thermal = true then
      3 * P.mat.alpha * (1 * P.unscaled.valueOf P.d (scaled P.ndof P.factor U) - P.mat.tref) else 0) -
      1 * _ / (P.penOf Z * P.bulk)) - P.penOf Z * (pow23 (|detForm P.d X| * P.cubWeight) / (2 * P.mat.shear)) *
      ∑ k ∈ range P.d, (1 * _ - P.projOf N k) * (1 * _) + if P.mat.thermal = true then P.penOf Z * P.cond * 1 *
        ∑ k ∈ range P.d, P.unscaled.gradOf P.d (scaled P.ndof P.factor U) X k *
          P.unscaled.gradOf P.d (scaled P.ndof P.weight W) X k else 0)
  simp only [one_mul]
  by_cases hT : P.mat.thermal = true
  · have hdn : P.d < P.ndof := by unfold Plast.ndof J2.ndof; rw [if_pos hT]; exact Nat.lt_add_of_pos_right (by omega)
    have v3 : P.unscaled.valueOf P.d (scaled P.ndof P.factor U) = P.mat.tscale * P.valueOf P.d U := by
      rw [← factor_temp hT]; exact valueOf_scaled hdn U
    have g3 : ∀ k, P.unscaled.gradOf P.d (scaled P.ndof P.factor U) X k = P.mat.tscale * P.gradOf P.d U X k := by
      intro k; rw [← factor_temp hT]; exact gradOf_scaled hdn U X k
    have g4 : ∀ k, P.unscaled.gradOf P.d (scaled P.ndof P.weight W) X k = P.gradOf P.d W X k := by
      intro k
      have := gradOf_scaled (P := P) (s := P.weight) hdn W X k
      rw [weight_temp hT, one_mul] at this
      exact this
    simp only [if_pos hT, v3, g3, g4]
    rw [show ∑ k ∈ range P.d, P.mat.tscale * P.gradOf P.d U X k * P.gradOf P.d W X k =
      P.mat.tscale * ∑ k ∈ range P.d, P.gradOf P.d U X k * P.gradOf P.d W X k by simp only [mul_sum, mul_assoc], mul_one,
      ← mul_assoc (P.penOf Z * P.cond)]
  · simp only [if_neg hT]

end Cell

/-! ## Meshes -/

/-- The arguments in terms of pressure and temperature. -/
def physical (P : Plast ℝ) (A : GArgs ℝ) : GArgs ℝ :=
  { A with loc := { A.loc with u := scaledList P.ndof P.factor A.loc.u, up := scaledList P.ndof P.factor A.loc.up } }

/-- All domains have the scaling of the first: the code reads one for all, InfinitesimalStrainPlasticityResidual.hpp:215
and InfinitesimalStrainThermoPlasticityResidual.hpp:221-222. -/
def OneScaling (M : FeModel) (P : Nat → Plast ℝ) : Prop :=
  ∀ k, k < M.domains.length → (P k).kappa = (P 0).kappa ∧ (P k).mat.tscale = (P 0).mat.tscale ∧
    (P k).mat.thermal = (P 0).mat.thermal

section Mesh
variable {M : FeModel} (hM : M.Ok) {P : Nat → Plast ℝ} (h : POk M P) (h1 : OneScaling M P)

include hM h h1 in
theorem factor_same {k : Nat} (hk : k < M.domains.length) : (P k).factor = (P 0).factor ∧ (P k).weight = (P 0).weight ∧
    (P k).poff = (P 0).poff := by
  have h0 : 0 < M.domains.length := List.length_pos_of_ne_nil hM.some_domain
  obtain ⟨a, b, c⟩ := h1 k hk
  have hd : (P k).d = (P 0).d := (h.j.d k hk).trans (h.j.d 0 h0).symm
  have hp : (P k).poff = (P 0).poff := by unfold Plast.poff; rw [hd, c]
  exact ⟨by funext i; unfold Plast.factor; rw [hp, hd, a, b, c], by funext i; unfold Plast.weight; rw [hp, a], hp⟩

theorem unscaled_ok (h : POk M P) : POk M fun k => (P k).unscaled :=
  ⟨⟨h.j.dim, h.j.d, h.j.ndof, h.j.basis⟩, h.loads⟩

theorem physical_ok {A : GArgs ℝ} {nl : Nat} (hA : A.Ok M nl) : (physical (P 0) A).Ok M nl := by
  refine ⟨⟨?_, ?_, hA.loc.c, hA.loc.cp, hA.loc.z, hA.loc.x⟩, hA.n⟩
  · simpa [physical, scaledList] using hA.loc.u
  · simpa [physical, scaledList] using hA.loc.up

include hM h in
theorem numbers_physical {A : GArgs ℝ} (cell : Nat) : (gNumbers M (physical (P 0) A) cell).loc.u =
    scaled M.ndof (P 0).factor (gNumbers M A cell).loc.u := by
  have h0 : 0 < M.domains.length := List.length_pos_of_ne_nil hM.some_domain
  funext l
  show at0 (scaledList (P 0).ndof (P 0).factor A.loc.u) (cellDof M.npc M.ndof M.c2n cell l) = _
  rw [at0_scaledList, show (P 0).ndof = M.ndof from h.j.ndof 0 h0]
  exact congrFun (dofs_scaled M (P 0).factor (at0 A.loc.u) cell) l

include hM h h1 in
theorem innerWork_scaled (pow23 : ℝ → ℝ) (A : GArgs ℝ) (w : Nat → ℝ) :
    innerWork M P pow23 A w = innerWork M (fun k => (P k).unscaled) pow23 (physical (P 0) A)
      (scaled M.ndof (P 0).weight w) := by
  unfold innerWork
  refine sum_congr rfl fun k hk => sum_congr rfl fun c _ => ?_
  have hk' := mem_range.1 hk
  have hnk : (P k).ndof = M.ndof := h.j.ndof k hk'
  obtain ⟨e1, e2, -⟩ := factor_same hM h h1 hk'
  rw [cellWork_scaled, numbers_physical hM h, dofs_scaled M, e1, e2, hnk]
  rfl

/-- No load acts on the equation of the pressure. -/
structure PressureFree (M : FeModel) (P : Nat → Plast ℝ) (B : Loads) (x : List ℝ) : Prop where
  body : ∀ k, k < M.domains.length → ∀ L ∈ (P k).bodyLoads, L.dof ≠ (P 0).poff
  bnd : ∀ q, q % M.ndof = (P 0).poff → boundaryForce M (P 0) B x q = 0

include hM h in
theorem loads_scaled {B : Loads} {A : GArgs ℝ} (hF : PressureFree M P B A.loc.x) (w : Nat → ℝ) :
    bodyWork M P A w = bodyWork M (fun k => (P k).unscaled) (physical (P 0) A) (scaled M.ndof (P 0).weight w) ∧
      boundaryWork M P B A w = boundaryWork M (fun k => (P k).unscaled) B (physical (P 0) A)
        (scaled M.ndof (P 0).weight w) := by
  constructor
  · unfold bodyWork
    refine sum_congr rfl fun k hk => sum_congr rfl fun c _ => ?_
    have hk' := mem_range.1 hk
    show _ = (P k).load * _
    congr 1
    show ((P k).bodyLoads.map _).sum = ((P k).bodyLoads.map _).sum
    congr 1
    refine List.map_congr_left fun L hL => ?_
    rw [dofs_scaled M]
    unfold cellLoad
    refine sum_congr rfl fun p _ => ?_
    rw [sum_congr rfl fun a _ => (by
      rw [scaled_node ((h.loads k hk' L hL).dof), Plast.weight, if_neg (hF.body k hk' L hL), one_mul] :
      L.basis.e a p * scaled M.ndof (P 0).weight (dofs M w (atN (dom M k) c)) (a * M.ndof + L.dof) =
        L.basis.e a p * dofs M w (atN (dom M k) c) (a * M.ndof + L.dof))]
    rfl
  · unfold boundaryWork
    show _ = (P 0).load * ∑ q ∈ range (M.nn * M.ndof), boundaryForce M (P 0) B A.loc.x q * _
    congr 1
    refine sum_congr rfl fun q _ => ?_
    unfold scaled Plast.weight
    by_cases hq : q % M.ndof = (P 0).poff
    · rw [hF.bnd q hq, zero_mul, zero_mul]
    · rw [if_neg hq, one_mul]

/-- Loads in cells and on the boundary do not depend on the scaling. -/
theorem unscaled_loads {B : Loads} (hB : LoadsOk M (P 0) B) : LoadsOk M (P 0).unscaled B :=
  ⟨hB.mech, hB.heat, hB.cub, hB.orders, hB.ordersT, hB.pressure⟩

include hM h h1 in
/-- **C73**: the residual of a problem with scaled pressure and temperature is, at every unknown, that of the problem
without scaling at the pressure and temperature that the unknowns stand for, the equations of the pressure times
the scaling.  The orders of the loops of both may differ. -/
theorem C73_residual (pow23 : ℝ → ℝ) {B : Loads} (hB : LoadsOk M (P 0) B) (init init' : Nat → Nat → Nat → Nat)
    {eR eR' : Nat → Nat → List Nat} (he : EvSched M eR) (he' : EvSched M eR') {A : GArgs ℝ}
    (hA : A.Ok M (localDofs M.dim)) (hF : PressureFree M P B A.loc.x) {sch sch' : Nat → Nat → List Nat}
    (hs : WsSched M sch) (ha : AddSched M (M.npc * M.ndof) sch) (hs' : WsSched M sch')
    (ha' : AddSched M (M.npc * M.ndof) sch') :
    (plastResidual M P pow23 B init eR sch A).Sat fun r =>
      (plastResidual M (fun k => (P k).unscaled) pow23 B init' eR' sch' (physical (P 0) A)).Sat fun r' =>
        r.length = r'.length ∧ ∀ q, at0 r q = (P 0).weight (q % M.ndof) * at0 r' q := by
  refine (C71_work hM h pow23 hB init he hA hs ha).mono ?_
  rintro r ⟨hl, hr⟩
  refine (C71_work hM (unscaled_ok h) pow23 (unscaled_loads hB) init' he' (physical_ok hA) hs' ha').mono ?_
  rintro r' ⟨hl', hr'⟩
  refine ⟨hl.trans hl'.symm, fun q => ?_⟩
  by_cases hq : q < M.nn * M.ndof
  · have e : ∀ w : Nat → ℝ, ∑ q ∈ range (M.nn * M.ndof), at0 r q * w q =
        ∑ q ∈ range (M.nn * M.ndof), at0 r' q * scaled M.ndof (P 0).weight w q := by
      intro w
      rw [hr w, hr' _, innerWork_scaled hM h h1, (loads_scaled hM h hF w).1, (loads_scaled hM h hF w).2]
    have := e (Pi.single q 1)
    unfold scaled at this
    rw [sum_eq_single q (fun b _ hb => by rw [Pi.single_eq_of_ne hb, mul_zero]) (fun hn => absurd (mem_range.2 hq) hn),
      sum_eq_single q (fun b _ hb => by rw [Pi.single_eq_of_ne hb, mul_zero, mul_zero])
        (fun hn => absurd (mem_range.2 hq) hn), Pi.single_eq_same, mul_one, mul_one] at this
    rw [this, mul_comm]
  · rw [at0_out (by omega), at0_out (by omega), mul_zero]

include hM h h1 in
/-- **C73**: with a scaling other than zero, the unknowns solve the scaled problem if and only if the pressure and
temperature they stand for solve the problem without scaling. -/
theorem C73_solutions (hk : (P 0).kappa ≠ 0) (pow23 : ℝ → ℝ) {B : Loads} (hB : LoadsOk M (P 0) B)
    (init init' : Nat → Nat → Nat → Nat) {eR eR' : Nat → Nat → List Nat} (he : EvSched M eR) (he' : EvSched M eR')
    {A : GArgs ℝ} (hA : A.Ok M (localDofs M.dim)) (hF : PressureFree M P B A.loc.x) {sch sch' : Nat → Nat → List Nat}
    (hs : WsSched M sch) (ha : AddSched M (M.npc * M.ndof) sch) (hs' : WsSched M sch')
    (ha' : AddSched M (M.npc * M.ndof) sch') :
    (plastResidual M P pow23 B init eR sch A).Sat fun r =>
      (plastResidual M (fun k => (P k).unscaled) pow23 B init' eR' sch' (physical (P 0) A)).Sat fun r' =>
        ∀ q, at0 r q = 0 ↔ at0 r' q = 0 := by
  refine (C73_residual hM h h1 pow23 hB init init' he he' hA hF hs ha hs' ha').mono fun r hr => hr.mono fun r' hr' q => ?_
  rw [hr'.2 q]
  have : (P 0).weight (q % M.ndof) ≠ 0 := by
    unfold Plast.weight
    split
    · exact hk
    · exact one_ne_zero
  simp [this]

end Mesh

/-! ## Local equations -/

section Local
variable {P : Plast ℝ}

theorem total_scaled (hd : P.d = 2 ∨ P.d = 3) (U : Nat → ℝ) (X : Nat → Nat → ℝ) :
    P.unscaled.mat.total (scaled P.ndof P.factor U) X = P.mat.total U X := by
  have hle := P.le_ndof
  have hf : ∀ i k, i < P.d → fieldGrad P.d (fun n i => scaled P.ndof P.factor U (n * P.ndof + i)) (gradForm P.d X) i k =
      fieldGrad P.d (fun n i => U (n * P.ndof + i)) (gradForm P.d X) i k := by
    intro i k hi
    unfold fieldGrad
    exact sum_congr rfl fun n _ => by dsimp only; rw [scaled_node (hi.trans_le hle), factor_disp hi, one_mul]
  have hv : ∀ t, (voigtPair P.d t).1 < P.d ∧ (voigtPair P.d t).2 < P.d := by
    intro t
    rcases hd with e | e <;> rw [e] <;> unfold voigtPair <;> split <;> simp_all
  funext t
  unfold J2.total
  show (if t < numVoigt P.d then voigtStrain P.d (fun n i => scaled P.ndof P.factor U (n * P.ndof + i)) (gradForm P.d X) t
    else 0) = if t < numVoigt P.d then voigtStrain P.d (fun n i => U (n * P.ndof + i)) (gradForm P.d X) t else 0
  unfold voigtStrain
  rw [hf _ _ (hv t).1, hf _ _ (hv t).1, hf _ _ (hv t).2]

theorem eta_scaled (hd : P.d = 2 ∨ P.d = 3) (U C Z : Nat → ℝ) (X : Nat → Nat → ℝ) :
    P.unscaled.mat.eta (scaled P.ndof P.factor U) C Z X = P.mat.eta U C Z X := by
  have e : P.unscaled.mat.elasticOf (P.unscaled.mat.total (scaled P.ndof P.factor U) X) (scaled P.ndof P.factor U) C =
      P.mat.elasticOf (P.mat.total U X) U C := by
    funext t
    unfold J2.elasticOf
    rw [total_scaled hd, therm_scaled]
    rfl
  unfold J2.eta
  rw [e]
  rfl

theorem updForm_scaled (hd : P.d = 2 ∨ P.d = 3) (sqrt : ℝ → ℝ) (b : Bool) (U Cp Z : Nat → ℝ) (X : Nat → Nat → ℝ) (i : Nat) :
    P.unscaled.mat.updForm sqrt b (scaled P.ndof P.factor U) Cp Z X i = P.mat.updForm sqrt b U Cp Z X i ∧
      P.unscaled.mat.trial sqrt (scaled P.ndof P.factor U) Cp Z X = P.mat.trial sqrt U Cp Z X := by
  constructor
  · unfold J2.updForm J2.incr J2.trial J2.dir J2.norm
    rw [eta_scaled hd]
    rfl
  · unfold J2.trial J2.norm
    rw [eta_scaled hd]
    rfl

end Local

/-- **C73**: the local equations give the same local state. -/
theorem C73_local {M : FeModel} (hM : M.Ok) (hB : Blocks M) {P : Nat → Plast ℝ} (h : POk M P) (h1 : OneScaling M P)
    {A : GArgs ℝ} (hA : A.Ok M (localDofs M.dim)) {ord ord' : Nat → List Nat} (ho : OrdOk M ord) (ho' : OrdOk M ord')
    {sch sch' : Nat → Nat → List Nat} (hs : LSched M sch) (hs' : LSched M sch') :
    (j2Update M (fun k => (P k).mat) ord sch A.loc).Sat fun c =>
      j2Update M (fun k => (P k).unscaled.mat) ord' sch' (physical (P 0) A).loc = .ok c := by
  unfold j2Update
  refine (C64_update hM hB localDofs_pos hs (updateEv_rowWise h.j ho _ _ _) hA.loc).mono ?_
  rintro c ⟨c0, c1, c2⟩
  obtain ⟨c', hc', d0, d1, d2⟩ := C64_update hM hB localDofs_pos hs'
    (updateEv_rowWise (unscaled_ok h).j ho' (fun a => |a|) Real.sqrt fun f => decide (tolerance < f))
    (physical_ok (P := P) hA).loc
  rw [hc']
  congr 1
  have hnl : 0 < localDofs M.dim := Nat.pos_of_ne_zero localDofs_pos
  refine ext_at0 (d0.trans c0.symm) fun q hq => ?_
  rw [d0] at hq
  have hcell : q / localDofs M.dim < M.nc := (Nat.div_lt_iff_lt_mul hnl).2 hq
  have hi := Nat.mod_lt q hnl
  have hqe : q / localDofs M.dim * localDofs M.dim + q % localDofs M.dim = q := Nat.div_add_mod' _ _
  by_cases hin : ∃ k, k < M.domains.length ∧ q / localDofs M.dim ∈ dom M k
  · obtain ⟨k, hk, hm⟩ := hin
    have a1 := c1 k hk _ hm _ hi
    have a2 := d1 k hk _ hm _ hi
    rw [hqe] at a1 a2
    rw [a1, a2]
    have hdk : (P k).d = M.dim := h.j.d k hk
    have hnk : (P k).ndof = M.ndof := h.j.ndof k hk
    have hd : (P k).d = 2 ∨ (P k).d = 3 := by rw [hdk]; exact h.j.dim
    have eu : (cellData M (localDofs M.dim) plainMk (physical (P 0) A).loc (q / localDofs M.dim)).u =
        scaled (P k).ndof (P k).factor (cellData M (localDofs M.dim) plainMk A.loc (q / localDofs M.dim)).u := by
      rw [hnk, (factor_same hM h h1 hk).1]
      exact numbers_physical hM h (A := A) (q / localDofs M.dim)
    rw [eu, (updForm_scaled hd Real.sqrt true _ _ _ _ 0).2, (updForm_scaled hd Real.sqrt _ _ _ _ _ _).1]
    rfl
  · have hno : ∀ k, k < M.domains.length → q / localDofs M.dim ∉ dom M k := fun k hk hm => hin ⟨k, hk, hm⟩
    have a1 := c2 _ hcell hno _ hi
    have a2 := d2 _ hcell hno _ hi
    rw [hqe] at a1 a2
    rw [a1, a2]
    rfl

/-! ## Projection -/

/-- The projection of the pressure gradient without scaling. -/
def Proj.unscaled (P : Proj ℝ) : Proj ℝ := { P with kappa := 1 }

/-- **C73**: the projection reads unknowns of the pressure, scaled once; with the pressure instead and no scaling its
residual is the same, in all cases. -/
theorem C73_projection (P : Proj ℝ) (fabs : ℝ → ℝ) (order : List Nat) (nc : Nat) (nodal press control : V2 ℝ)
    (config : V3 ℝ) (result : V2 ℝ) :
    P.evaluate fabs order nc nodal press control config result =
      P.unscaled.evaluate fabs order nc nodal ⟨press.d0, press.d1, fun c n => P.kappa * press.e c n⟩ control config
        result := by
  have e : ∀ cell out g, pressureGradient P.kappa P.d cell out press g =
      pressureGradient 1 P.d cell out ⟨press.d0, press.d1, fun c n => P.kappa * press.e c n⟩ g := by
    intro cell out g
    unfold pressureGradient
    congr 1
    funext k out
    congr 1
    funext out
    congr 1
    funext n out
    unfold vrd2
    split
    · simp only [Res.ok_bind, one_mul]
    · rfl
  unfold Proj.evaluate Proj.cellBody
  simp only [e]
  rfl

end Plato.Plast
