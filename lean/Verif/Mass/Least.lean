import Verif.Mass.Inertia
import Mathlib.Analysis.Matrix.Spectrum

/-!
# The mass properties criterion (C70)
-/

namespace Plato.Mass
open Plato Plato.Mech Plato.Crit Finset Matrix

/-! ## Specification -/

/-- The property of a name. -/
noncomputable def propertyOf (B : Body) : String → Option (List ℝ → List ℝ → ℝ)
  | "Mass" => some (massOf B)
  | "CGx" => some fun z x => centreOf B z x 0
  | "CGy" => some fun z x => centreOf B z x 1
  | "CGz" => some fun z x => centreOf B z x 2
  | "Ixx" => some fun z x => inertiaOf B z x 0 0
  | "Iyy" => some fun z x => inertiaOf B z x 1 1
  | "Izz" => some fun z x => inertiaOf B z x 2 2
  | "Ixy" => some fun z x => inertiaOf B z x 0 1
  | "Ixz" => some fun z x => inertiaOf B z x 0 2
  | "Iyz" => some fun z x => inertiaOf B z x 1 2
  | _ => none

/-- The size by which the difference from a gold value is divided: the absolute value of the gold value, or one
when that is small. -/
noncomputable def goldScale (g : ℝ) : ℝ := if |g| > 1 / 10 then |g| else 1

/-- The same for an extent of the mesh. -/
noncomputable def extentScale (e : ℝ) : ℝ := if |e| > 1 / 10 then |e| else 1 / 10

theorem goldScale_pos (g : ℝ) : 0 < goldScale g := by
  unfold goldScale
  split
  · linarith
  · norm_num

theorem extentScale_pos (g : ℝ) : 0 < extentScale g := by
  unfold extentScale
  split
  · linarith
  · norm_num

/-- The size for a name: extents of the mesh for the centre of gravity. -/
noncomputable def scaleOf (ext : ℝ × ℝ × ℝ) (name : String) (g : ℝ) : ℝ :=
  if name = "CGx" then extentScale ext.1 else if name = "CGy" then extentScale ext.2.1
  else if name = "CGz" then extentScale ext.2.2 else goldScale g

/-- A term of the least squares: property, weight, gold value, size. -/
structure Term where
  v : List ℝ → List ℝ → ℝ
  w : ℝ
  g : ℝ
  s : ℝ

/-- Value of a term. -/
noncomputable def Term.at (t : Term) (z x : List ℝ) : ℝ := t.w * ((t.v z x - t.g) / t.s) ^ 2

/-- The parts of the least squares function make the terms. -/
structure Makes (B : Body) (D : List ℝ → List ℝ → Prop) (p : Parts) (ts : List Term) : Prop where
  fs : List.Forall₂ (Sound B D) p.1 (ts.map Term.v)
  w : p.2.weights = ts.map Term.w
  g : p.2.gold = ts.map Term.g
  s : p.2.scale = ts.map Term.s

theorem makes_nil (B : Body) (D : List ℝ → List ℝ → Prop) : Makes B D ([], ⟨[], [], [], false⟩) [] :=
  ⟨.nil, rfl, rfl, rfl⟩

section
variable {B : Body} {D : List ℝ → List ℝ → Prop} {p : Parts} {ts : List Term}

theorem Makes.add (h : Makes B D p ts) {f : GeoCriterion} {v : List ℝ → List ℝ → ℝ} (hf : Sound B D f v) (w g : ℝ) :
    Makes B D (p.add f w g) (ts ++ [⟨v, w, g, goldScale g⟩]) := by
  refine ⟨?_, ?_, ?_, ?_⟩
  · rw [List.map_append]
    exact List.rel_append h.fs (.cons hf .nil)
  · simp [Parts.add, LeastSquares.appendWeight, LeastSquares.appendGold, h.w]
  · simp [Parts.add, LeastSquares.appendWeight, LeastSquares.appendGold, h.g]
  · simp [Parts.add, LeastSquares.appendWeight, LeastSquares.appendGold, h.s, goldScale, cutoff]

theorem Makes.addScaled (h : Makes B D p ts) {f : GeoCriterion} {v : List ℝ → List ℝ → ℝ} (hf : Sound B D f v) (w g e : ℝ) :
    Makes B D (p.addScaled f w g e) (ts ++ [⟨v, w, g, extentScale e⟩]) := by
  refine ⟨?_, ?_, ?_, ?_⟩
  · rw [List.map_append]
    exact List.rel_append h.fs (.cons hf .nil)
  · simp [Parts.addScaled, LeastSquares.appendWeight, LeastSquares.appendGold, LeastSquares.appendScale, h.w]
  · simp [Parts.addScaled, LeastSquares.appendWeight, LeastSquares.appendGold, LeastSquares.appendScale, h.g]
  · simp [Parts.addScaled, LeastSquares.appendWeight, LeastSquares.appendGold, LeastSquares.appendScale, h.s,
      extentScale, cutoff]

theorem sum_getElem {α : Type} (f : α → ℝ) (l : List α) (F : Nat → ℝ) (h : ∀ i (hi : i < l.length), F i = f l[i]) :
    ∑ i ∈ range l.length, F i = (l.map f).sum := by
  rw [Finset.sum_range, ← List.sum_ofFn]
  congr 1
  refine List.ext_getElem (by simp) fun i h1 h2 => ?_
  simp only [List.getElem_ofFn, List.getElem_map]
  exact h i _

/-- The criterion is the sum of the terms, with the right gradients. -/
theorem Makes.sound (h : Makes B D p ts) {o : Orders} (ho : o.Ok B.M) :
    Sound B D (massProperties B p o) fun z x => (ts.map fun t => t.at z x).sum := by
  have hl : p.1.length = ts.length := by rw [h.fs.length_eq, List.length_map]
  have hw : p.2.weights.length = p.1.length := by rw [h.w, List.length_map, hl]
  have hg : p.2.gold.length = p.1.length := by rw [h.g, List.length_map, hl]
  have hs : p.2.scale.length = p.1.length := by rw [h.s, List.length_map, hl]
  have hat : ∀ (l : List Term) (f : Term → ℝ) i (hi : i < l.length), at0 (l.map f) i = f l[i] := by
    intro l f i hi
    rw [at0_eq (by simpa using hi), List.getElem_map]
  refine ⟨fun z x hz hx hD => ?_, fun z x hD hdet => ?_⟩
  · have := leastValue_ok hw hg hs (val := fun i => do let f ← rd p.1 i; f.value z x)
      (v := fun i => ((ts.map Term.v)[i]?.getD 0) z x) fun i hi => by
        have := ((List.forall₂_iff_get.1 h.fs).2 i hi (by rw [List.length_map]; omega)).value z x hz hx hD
        rw [List.get_eq_getElem, List.get_eq_getElem] at this
        rw [rd_eq hi, Res.ok_bind, this]
        have hi' : i < ts.length := by omega
        simp [hi']
    refine this.trans (congrArg Res.ok ?_)
    rw [hl]
    refine sum_getElem _ ts _ fun i hi => ?_
    rw [h.w, h.g, h.s, hat ts _ i hi, hat ts _ i hi, hat ts _ i hi]
    unfold Term.at
    simp [hi]
  · have := C26_geo_least hw hg hs (schX := o.ox) (schZ := o.oz) (fun i _ => ho.ox i) (fun i _ => ho.oz i)
      (z := z) (x := x) fun f hf => by
        obtain ⟨i, hi, rfl⟩ := List.getElem_of_mem hf
        exact ((List.forall₂_iff_get.1 h.fs).2 i hi (by rw [List.length_map]; omega)).grad z x hD hdet
    exact GeoDifferentiates.mk this.1 this.2

end

/-- Names of the coordinates of the centre of gravity. -/
def isCentre (name : String) : Prop := name = "CGx" ∨ name = "CGy" ∨ name = "CGz"

section Items
variable {B : Body} (hB : B.Ok) (h3 : B.M.dim = 3) {o : List Nat → Orders} (ho : ∀ p, (o p).Ok B.M) (ext : ℝ × ℝ × ℝ)
include hB h3 ho

theorem addItem_ok {D : List ℝ → List ℝ → Prop} {p : Parts} {ts : List Term} (h : Makes B D p ts) {name : String}
    {v : List ℝ → List ℝ → ℝ} (hv : propertyOf B name = some v) (hD : isCentre name → ∀ z x, D z x → massOf B z x ≠ 0)
    (w g : ℝ) : (addItem B ext o name w g p).Sat fun q => Makes B D q (ts ++ [⟨v, w, g, scaleOf ext name g⟩]) := by
  have inert : ∀ {axes : String} {i j : Fin 3}, pairOf axes = some (i, j) →
      (do pure (p.add (← inertiaFn B axes o) w g) : Res Parts).Sat fun q =>
        Makes B D q (ts ++ [(⟨fun z x => inertiaOf B z x i j, w, g, goldScale g⟩ : Term)]) := by
    intro axes i j hp
    exact (inertia_sound hB h3 ho hp D).bind fun f hf => Res.Sat.ok (h.add hf w g)
  have cg : ∀ {type : String} {i : Fin 3} (e : ℝ), axesOf type = some [i.1] → isCentre name →
      Makes B D (p.addScaled (ratioFn B type o) w g e) (ts ++ [⟨fun z x => centreOf B z x i, w, g, extentScale e⟩]) :=
    fun e ht hc => h.addScaled ((ratio_sound hB h3 ho ht).mono (hD hc)) w g e
  unfold propertyOf at hv
  split at hv <;> cases hv
  · exact Res.Sat.ok (h.add (mass_sound hB (ho []) D) w g)
  · exact Res.Sat.ok (cg (type := "FirstX") (i := 0) ext.1 rfl (.inl rfl))
  · exact Res.Sat.ok (cg (type := "FirstY") (i := 1) ext.2.1 rfl (.inr (.inl rfl)))
  · exact Res.Sat.ok (cg (type := "FirstZ") (i := 2) ext.2.2 rfl (.inr (.inr rfl)))
  · exact inert (axes := "XX") (i := 0) (j := 0) rfl
  · exact inert (axes := "YY") (i := 1) (j := 1) rfl
  · exact inert (axes := "ZZ") (i := 2) (j := 2) rfl
  · exact inert (axes := "XY") (i := 0) (j := 1) rfl
  · exact inert (axes := "XZ") (i := 0) (j := 2) rfl
  · exact inert (axes := "YZ") (i := 1) (j := 2) rfl

/-- Terms of a list of names. -/
noncomputable def termsOf (B : Body) (ext : ℝ × ℝ × ℝ) (names : List String) (ws gold : List ℝ) : List Term :=
  (List.range names.length).map fun i => ⟨(propertyOf B (names[i]?.getD "")).getD 0, at0 ws i, at0 gold i,
    scaleOf ext (names[i]?.getD "") (at0 gold i)⟩

theorem itemized_ok {names : List String} {ws gold : List ℝ} (hw : ws.length = names.length) (hg : gold.length = names.length)
    (hn : ∀ n ∈ names, (propertyOf B n).isSome) {D : List ℝ → List ℝ → Prop}
    (hD : (∃ n ∈ names, isCentre n) → ∀ z x, D z x → massOf B z x ≠ 0) :
    (itemized B ext o names ws gold).Sat fun p => Makes B D p (termsOf B ext names ws gold) := by
  unfold itemized
  have := forRange_inv (lo := 0) (hi := names.length) (s := (([], ⟨[], [], [], false⟩) : Parts))
    (body := fun i s => do
      let nm ← rd names i
      let w ← rd ws i
      let g ← rd gold i
      addItem B ext (under o i) nm w g s)
    (fun k p => Makes B D p ((List.range k).map fun i => ⟨(propertyOf B (names[i]?.getD "")).getD 0, at0 ws i, at0 gold i,
      scaleOf ext (names[i]?.getD "") (at0 gold i)⟩)) (Nat.zero_le _) (makes_nil B D) (by
      intro i s _ hi hs
      have hm := hn _ (List.getElem_mem hi)
      obtain ⟨v, hv⟩ := Option.isSome_iff_exists.1 hm
      rw [rd_eq hi, Res.ok_bind, rd_at0 (by omega), Res.ok_bind, rd_at0 (by omega), Res.ok_bind]
      have := addItem_ok (o := under o i) hB h3 (fun p => ho (i :: p)) ext hs hv
        (fun hc => hD ⟨_, List.getElem_mem hi, hc⟩) (at0 ws i) (at0 gold i)
      rw [List.range_succ, List.map_append]
      simp only [List.map_cons, List.map_nil, List.getElem?_eq_getElem hi, Option.getD_some, hv]
      exact this)
  exact this

/-- **C70**: with some of the properties, the criterion is the sum over the listed names of weight times the
square of the difference of the property from its gold value, divided by its size; its gradients are the
derivatives of that.  The mass must not be zero when a coordinate of the centre of gravity is listed. -/
theorem C70_items {names : List String} {ws gold : List ℝ} (hw : ws.length = names.length)
    (hg : gold.length = names.length) (hn : ∀ n ∈ names, (propertyOf B n).isSome) {o' : Orders} (ho' : o'.Ok B.M) :
    (itemized B ext o names ws gold).Sat fun p =>
      Sound B (fun z x => (∃ n ∈ names, isCentre n) → massOf B z x ≠ 0) (massProperties B p o') fun z x =>
        ∑ i ∈ range names.length, at0 ws i * (((propertyOf B (names[i]?.getD "")).getD 0 z x - at0 gold i) /
          scaleOf ext (names[i]?.getD "") (at0 gold i)) ^ 2 := by
  refine (itemized_ok hB h3 ho ext hw hg hn (D := fun z x => (∃ n ∈ names, isCentre n) → massOf B z x ≠ 0)
    fun hc z x h => h hc).mono fun p hp => ?_
  have := hp.sound ho'
  have e : (fun z x => ((termsOf B ext names ws gold).map fun t => t.at z x).sum) = fun z x =>
      ∑ i ∈ range names.length, at0 ws i * (((propertyOf B (names[i]?.getD "")).getD 0 z x - at0 gold i) /
        scaleOf ext (names[i]?.getD "") (at0 gold i)) ^ 2 := by
    funext z x
    unfold termsOf
    rw [List.map_map, sum_map_range]
    rfl
  rw [e] at this
  exact this


/-! ## All properties -/

/-- The ten terms when all properties are listed. -/
noncomputable def allTerms (B : Body) (F : Frame) (P : Tensor) (ext : ℝ × ℝ × ℝ) (w g : String → ℝ) : List Term :=
  let r : Fin 3 → Fin 3 → List ℝ → List ℝ → ℝ := fun i j z x => (F.Qᵀ * ((inertiaOf B z x - massOf B z x • P) * F.Q)) i j
  let m := extentScale (min (F.l 0) (min (F.l 1) (F.l 2)))
  [⟨massOf B, w "Mass", g "Mass", goldScale (g "Mass")⟩,
    ⟨fun z x => centreOf B z x 0, w "CGx", g "CGx", extentScale ext.1⟩,
    ⟨fun z x => centreOf B z x 1, w "CGy", g "CGy", extentScale ext.2.1⟩,
    ⟨fun z x => centreOf B z x 2, w "CGz", g "CGz", extentScale ext.2.2⟩,
    ⟨r 0 0, w "Ixx", F.l 0, goldScale (F.l 0)⟩, ⟨r 1 1, w "Iyy", F.l 1, goldScale (F.l 1)⟩,
    ⟨r 2 2, w "Izz", F.l 2, goldScale (F.l 2)⟩, ⟨r 0 1, w "Ixy", 0, m⟩, ⟨r 0 2, w "Ixz", 0, m⟩, ⟨r 1 2, w "Iyz", 0, m⟩]

omit hB h3 ho in
theorem frameOf_minusP (eig : Tensor → Tensor × (Fin 3 → ℝ)) (g : String → ℝ) : (frameOf eig g).minusP =
    -((frameOf eig g).Qᵀ * (parallelAxis ![g "CGx", g "CGy", g "CGz"] * (frameOf eig g).Q)) := by
  show -(1 : ℝ) • _ = _
  rw [neg_smul, one_smul]
  rfl

theorem allProperties_ok (eig : Tensor → Tensor × (Fin 3 → ℝ)) (names : List String) (ws gold : List ℝ) :
    (allProperties B eig ext o names ws gold).Sat fun p => Makes B (fun z x => massOf B z x ≠ 0) p
      (allTerms B (frameOf eig (lookUp names gold))
        (parallelAxis ![lookUp names gold "CGx", lookUp names gold "CGy", lookUp names gold "CGz"]) ext
        (lookUp names ws) (lookUp names gold)) := by
  have hu : ∀ n p, ((under o n) p).Ok B.M := fun n p => ho (n :: p)
  have hF := frameOf_minusP eig (lookUp names gold)
  have h0 := (makes_nil B fun z x => massOf B z x ≠ 0).add (mass_sound hB (hu 0 []) _) (lookUp names ws "Mass") (lookUp names gold "Mass")
  have h1 := h0.addScaled (ratio_sound hB h3 (hu 1) (type := "FirstX") (i := 0) rfl) (lookUp names ws "CGx")
    (lookUp names gold "CGx") ext.1
  have h2 := h1.addScaled (ratio_sound hB h3 (hu 2) (type := "FirstY") (i := 1) rfl) (lookUp names ws "CGy")
    (lookUp names gold "CGy") ext.2.1
  have h4 := h2.addScaled (ratio_sound hB h3 (hu 3) (type := "FirstZ") (i := 2) rfl) (lookUp names ws "CGz")
    (lookUp names gold "CGz") ext.2.2
  unfold allProperties
  dsimp only
  refine (rotated_sound hB h3 (hu 4) hF (axes := "XX") (i := 0) (j := 0) rfl (fun z x => massOf B z x ≠ 0)).bind fun xx hxx => ?_
  refine (rotated_sound hB h3 (hu 5) hF (axes := "YY") (i := 1) (j := 1) rfl (fun z x => massOf B z x ≠ 0)).bind fun yy hyy => ?_
  refine (rotated_sound hB h3 (hu 6) hF (axes := "ZZ") (i := 2) (j := 2) rfl (fun z x => massOf B z x ≠ 0)).bind fun zz hzz => ?_
  refine (rotated_sound hB h3 (hu 7) hF (axes := "XY") (i := 0) (j := 1) rfl (fun z x => massOf B z x ≠ 0)).bind fun xy hxy => ?_
  refine (rotated_sound hB h3 (hu 8) hF (axes := "XZ") (i := 0) (j := 2) rfl (fun z x => massOf B z x ≠ 0)).bind fun xz hxz => ?_
  refine (rotated_sound hB h3 (hu 9) hF (axes := "YZ") (i := 1) (j := 2) rfl (fun z x => massOf B z x ≠ 0)).bind fun yz hyz => ?_
  exact Res.Sat.ok ((((((h4.add hxx _ _).add hyy _ _).add hzz _ _).addScaled hxy _ _ _).addScaled hxz _ _ _).addScaled hyz _ _ _)

/-- **C70**: with all properties, the criterion is the sum of ten squares: mass, centre of gravity, and the
components of `Qᵀ (I - m P) Q` against the principal values; `Q`, `P` and the principal values come from the
gold values.  Its gradients are the derivatives of that. -/
theorem C70_all (eig : Tensor → Tensor × (Fin 3 → ℝ)) (names : List String) (ws gold : List ℝ) {o' : Orders}
    (ho' : o'.Ok B.M) : (allProperties B eig ext o names ws gold).Sat fun p =>
      Sound B (fun z x => massOf B z x ≠ 0) (massProperties B p o') fun z x =>
        ((allTerms B (frameOf eig (lookUp names gold))
          (parallelAxis ![lookUp names gold "CGx", lookUp names gold "CGy", lookUp names gold "CGz"]) ext
          (lookUp names ws) (lookUp names gold)).map fun t => t.at z x).sum :=
  (allProperties_ok hB h3 ho ext eig names ws gold).mono fun _ hp => hp.sound ho'

end Items

/-! ## When the criterion is zero -/

/-- The eigenvalue decomposition of `A`. -/
def EigOk (eig : Tensor → Tensor × (Fin 3 → ℝ)) (A : Tensor) : Prop :=
  (eig A).1ᵀ * (eig A).1 = 1 ∧ (eig A).1ᵀ * (A * (eig A).1) = Matrix.diagonal (eig A).2

/-- There are decompositions of all symmetric tensors. -/
theorem eig_exists : ∃ eig : Tensor → Tensor × (Fin 3 → ℝ), ∀ A : Tensor, Aᵀ = A → EigOk eig A := by
  have : ∀ A : Tensor, ∃ e : Tensor × (Fin 3 → ℝ), Aᵀ = A → e.1ᵀ * e.1 = 1 ∧ e.1ᵀ * (A * e.1) = Matrix.diagonal e.2 := by
    intro A
    by_cases hA : Aᵀ = A
    · have hH : A.IsHermitian := by
        rw [Matrix.IsHermitian, Matrix.conjTranspose_eq_transpose_of_trivial, hA]
      refine ⟨((hH.eigenvectorUnitary : Tensor), hH.eigenvalues), fun _ => ?_⟩
      have hU : (hH.eigenvectorUnitary : Tensor)ᵀ * (hH.eigenvectorUnitary : Tensor) = 1 := by
        have := Unitary.coe_star_mul_self hH.eigenvectorUnitary
        rwa [Matrix.star_eq_conjTranspose, Matrix.conjTranspose_eq_transpose_of_trivial] at this
      refine ⟨hU, ?_⟩
      have hs := hH.spectral_theorem
      rw [Unitary.conjStarAlgAut_apply, Matrix.star_eq_conjTranspose, Matrix.conjTranspose_eq_transpose_of_trivial] at hs
      have hd : (Matrix.diagonal ((RCLike.ofReal : ℝ → ℝ) ∘ hH.eigenvalues)) = Matrix.diagonal hH.eigenvalues := rfl
      rw [hd] at hs
      generalize (hH.eigenvectorUnitary : Tensor) = U at hs hU ⊢
      generalize hH.eigenvalues = l at hs ⊢
      dsimp only
      rw [hs]
      calc Uᵀ * (U * Matrix.diagonal l * Uᵀ * U) = (Uᵀ * U) * Matrix.diagonal l * (Uᵀ * U) := by
            simp only [Matrix.mul_assoc]
        _ = Matrix.diagonal l := by rw [hU, Matrix.one_mul, Matrix.mul_one]
    · exact ⟨(0, 0), fun h => absurd h hA⟩
  choose eig h using this
  exact ⟨eig, fun A hA => h A hA⟩

/-- The gold inertia tensor. -/
def goldInertia (g : String → ℝ) : Tensor :=
  !![g "Ixx", g "Ixy", g "Ixz"; g "Ixy", g "Iyy", g "Iyz"; g "Ixz", g "Iyz", g "Izz"]

/-- The gold inertia tensor about the gold centre of gravity. -/
noncomputable def goldAboutCentre (g : String → ℝ) : Tensor :=
  goldInertia g - g "Mass" • parallelAxis ![g "CGx", g "CGy", g "CGz"]

theorem term_zero {t : Term} {z x : List ℝ} (hw : 0 < t.w) (hs : 0 < t.s) : 0 ≤ t.at z x ∧ (t.at z x = 0 ↔ t.v z x = t.g) := by
  unfold Term.at
  refine ⟨mul_nonneg hw.le (sq_nonneg _), ?_⟩
  constructor
  · intro h
    rcases mul_eq_zero.1 h with h | h
    · exact absurd h hw.ne'
    · have := pow_eq_zero_iff (two_ne_zero) |>.1 h
      rcases div_eq_zero_iff.1 this with h | h
      · linarith
      · exact absurd h hs.ne'
  · intro h
    rw [h]
    simp

theorem terms_zero {ts : List Term} {z x : List ℝ} (h : ∀ t ∈ ts, 0 < t.w ∧ 0 < t.s) :
    (ts.map fun t => t.at z x).sum = 0 ↔ ∀ t ∈ ts, t.v z x = t.g := by
  have nn : ∀ l : List Term, (∀ t ∈ l, 0 < t.w ∧ 0 < t.s) → 0 ≤ (l.map fun t => t.at z x).sum := by
    intro l hl
    refine List.sum_nonneg fun a ha => ?_
    obtain ⟨t, ht, rfl⟩ := List.mem_map.1 ha
    exact (term_zero (hl t ht).1 (hl t ht).2).1
  induction ts with
  | nil => simp
  | cons t ts ih =>
    have ht := term_zero (z := z) (x := x) (h t (List.mem_cons_self ..)).1 (h t (List.mem_cons_self ..)).2
    have hr := nn ts fun t ht => h t (List.mem_cons_of_mem _ ht)
    have ih' := ih fun t ht => h t (List.mem_cons_of_mem _ ht)
    rw [List.map_cons, List.sum_cons, add_eq_zero_iff_of_nonneg ht.1 hr, ht.2, List.forall_mem_cons]
    exact and_congr_right fun _ => ih'

/-- **C70**: with positive weights and an exact eigenvalue decomposition, the sum for all properties is zero
exactly when mass, centre of gravity and the inertia tensor have their gold values. -/
theorem C70_zero {B : Body} (eig : Tensor → Tensor × (Fin 3 → ℝ)) (ext : ℝ × ℝ × ℝ) {w g : String → ℝ}
    (hw : ∀ n ∈ allNames, 0 < w n) (he : EigOk eig (goldAboutCentre g)) (z x : List ℝ) :
    ((allTerms B (frameOf eig g) (parallelAxis ![g "CGx", g "CGy", g "CGz"]) ext w g).map fun t => t.at z x).sum = 0 ↔
      massOf B z x = g "Mass" ∧ centreOf B z x = ![g "CGx", g "CGy", g "CGz"] ∧ inertiaOf B z x = goldInertia g := by
  have hQ : (frameOf eig g).Q = (eig (goldAboutCentre g)).1 := rfl
  have hl : (frameOf eig g).l = (eig (goldAboutCentre g)).2 := rfl
  obtain ⟨h1, h2⟩ := he
  rw [← hQ, ← hl] at h2
  rw [← hQ] at h1
  generalize frameOf eig g = F at *
  have h1' : F.Q * F.Qᵀ = 1 := mul_eq_one_comm.1 h1
  have hpos : ∀ t ∈ allTerms B F (parallelAxis ![g "CGx", g "CGy", g "CGz"]) ext w g, 0 < t.w ∧ 0 < t.s := by
    have hw' : ∀ n ∈ allNames, 0 < w n := hw
    simp only [allNames, List.forall_mem_cons] at hw'
    obtain ⟨w0, w1, w2, w3, w4, w5, w6, w7, w8, w9, -⟩ := hw'
    simp only [allTerms, List.forall_mem_cons]
    exact ⟨⟨w0, goldScale_pos _⟩, ⟨w1, extentScale_pos _⟩, ⟨w2, extentScale_pos _⟩, ⟨w3, extentScale_pos _⟩,
      ⟨w4, goldScale_pos _⟩, ⟨w5, goldScale_pos _⟩, ⟨w6, goldScale_pos _⟩, ⟨w7, extentScale_pos _⟩,
      ⟨w8, extentScale_pos _⟩, ⟨w9, extentScale_pos _⟩, by simp⟩
  rw [terms_zero hpos]
  simp only [allTerms, List.forall_mem_cons, List.not_mem_nil, false_imp_iff, implies_true, and_true]
  set P := parallelAxis ![g "CGx", g "CGy", g "CGz"] with hP
  have hA : goldAboutCentre g = goldInertia g - g "Mass" • P := rfl
  constructor
  · rintro ⟨m, c0, c1, c2, i0, i1, i2, i3, i4, i5⟩
    refine ⟨m, ?_, ?_⟩
    · funext i
      fin_cases i
      · exact c0
      · exact c1
      · exact c2
    · set T := inertiaOf B z x - massOf B z x • P with hT
      have hsym : Tᵀ = T := by
        funext i j
        simp only [hT, Matrix.transpose_apply, Matrix.sub_apply, Matrix.smul_apply, hP, parallelAxis, Matrix.one_apply,
          Matrix.vecMulVec_apply, inertia_symm z x i j, eq_comm (a := i)]
        rw [mul_comm (![g "CGx", g "CGy", g "CGz"] i)]
      have hR : F.Qᵀ * (T * F.Q) = Matrix.diagonal F.l := by
        have hs : (F.Qᵀ * (T * F.Q))ᵀ = F.Qᵀ * (T * F.Q) := by
          rw [Matrix.transpose_mul, Matrix.transpose_mul, Matrix.transpose_transpose, hsym, Matrix.mul_assoc]
        have s01 := congrFun (congrFun hs 0) 1
        have s02 := congrFun (congrFun hs 0) 2
        have s12 := congrFun (congrFun hs 1) 2
        rw [Matrix.transpose_apply] at s01 s02 s12
        funext i j
        fin_cases i <;> fin_cases j <;> simp [i0, i1, i2, i3, i4, i5, s01, s02, s12]
      have back : ∀ A : Tensor, F.Q * (F.Qᵀ * (A * F.Q)) * F.Qᵀ = A := by
        intro A
        rw [← Matrix.mul_assoc, h1', Matrix.one_mul, Matrix.mul_assoc, h1', Matrix.mul_one]
      have : T = goldAboutCentre g := by rw [← back T, hR, ← h2, back]
      rw [hT, hA, m] at this
      exact sub_left_inj.1 this
  · rintro ⟨m, c, hI⟩
    have e : F.Qᵀ * ((inertiaOf B z x - massOf B z x • P) * F.Q) = Matrix.diagonal F.l := by
      rw [hI, m, ← hA, h2]
    refine ⟨m, ?_, ?_, ?_, ?_, ?_, ?_, ?_, ?_, ?_⟩
    · rw [c]; rfl
    · rw [c]; rfl
    · rw [c]; rfl
    all_goals rw [e]; simp

end Plato.Mass
