import Verif.Crit.Model
import Verif.Mech.Gradients
import Verif.Blas.Vector
import Verif.Blas.Matrix
import Mathlib.Analysis.Calculus.Deriv.Pi
import Mathlib.Analysis.Calculus.Deriv.Inv
import Mathlib.Analysis.Calculus.Deriv.Pow
import Mathlib.Analysis.Calculus.FDeriv.Pow

/-!
# C26: gradients of composite criteria

`Reports` is the specification: near a point a criterion reports the values of a function, and what it
reports as the gradient at the point are the partial derivatives of that function.  Weighted sums,
quotients and least squares of criteria that meet it meet it, for every number of components, every
size and every schedule of every loop.
-/

namespace Plato.Crit
open Finset Plato Plato.Mech Filter Topology

/-- The vector `grad` holds the partial derivatives at `p` of the function that `value` reports near
`p`. -/
def Reports (m : Nat) (value : List ℝ → Res ℝ) (grad : Res (List ℝ)) (p : Fin m → ℝ) : Prop :=
  ∃ (f : (Fin m → ℝ) → ℝ) (g : List ℝ), (∀ᶠ y in 𝓝 p, value (List.ofFn y) = .ok (f y)) ∧
    grad = .ok g ∧ g.length = m ∧ HasFDerivAt f (lin m (at0 g)) p

/-- What `Reports` says about single entries: along every coordinate the reported value has the
reported entry as derivative. -/
theorem Reports.partials {m : Nat} {value : List ℝ → Res ℝ} {grad : Res (List ℝ)} {p : Fin m → ℝ}
    (h : Reports m value grad p) : ∃ (f : (Fin m → ℝ) → ℝ) (g : List ℝ),
      (∀ᶠ y in 𝓝 p, value (List.ofFn y) = .ok (f y)) ∧ grad = .ok g ∧ g.length = m ∧
      ∀ j : Fin m, HasDerivAt (fun t : ℝ => f (Function.update p j t)) (at0 g j) (p j) := by
  obtain ⟨f, g, hv, hg, hl, hd⟩ := h
  refine ⟨f, g, hv, hg, hl, fun j => ?_⟩
  have hd' : HasFDerivAt f (lin m (at0 g)) (Function.update p j (p j)) := by
    rwa [Function.update_eq_self]
  have := hd'.comp_hasDerivAt (p j) (hasDerivAt_update p j (p j))
  simpa [lin_apply, Pi.single_apply, Function.comp_def] using this

/-- The value at the point itself. -/
theorem Reports.val {m : Nat} {value : List ℝ → Res ℝ} {grad : Res (List ℝ)} {p : Fin m → ℝ}
    (h : Reports m value grad p) : ∃ v, value (List.ofFn p) = .ok v := by
  obtain ⟨f, g, hv, -⟩ := h
  exact ⟨_, hv.self_of_nhds⟩

/-- The gradient is determined by the values. -/
theorem Reports.unique {m : Nat} {value : List ℝ → Res ℝ} {g₁ g₂ : Res (List ℝ)} {p : Fin m → ℝ}
    (h₁ : Reports m value g₁ p) (h₂ : Reports m value g₂ p) : g₁ = g₂ := by
  obtain ⟨f, g, hv, rfl, hl, hd⟩ := h₁
  obtain ⟨f', g', hv', rfl, hl', hd'⟩ := h₂
  have he : f' =ᶠ[𝓝 p] f := by
    filter_upwards [hv, hv'] with y h h'
    rw [h] at h'
    exact (Res.ok.inj h').symm
  have hh := (hd.congr_of_eventuallyEq he).unique hd'
  congr 1
  refine List.ext_getElem (by omega) fun j h1 h2 => ?_
  rw [← at0_eq h1, ← at0_eq h2]
  exact lin_inj hh (by omega)

theorem lin_congr {m : Nat} {f g : Nat → ℝ} (h : ∀ j, j < m → f j = g j) : lin m f = lin m g := by
  unfold lin
  exact sum_congr rfl fun j _ => by rw [h j j.2]

theorem lin_sum {ι : Type} {m : Nat} (s : Finset ι) (c : ι → ℝ) (f : ι → Nat → ℝ) :
    lin m (fun j => ∑ i ∈ s, c i * f i j) = ∑ i ∈ s, c i • lin m (f i) := by
  ext y
  simp only [lin_apply, _root_.sum_apply, _root_.smul_apply, smul_eq_mul, sum_mul, mul_sum]
  rw [sum_comm]
  exact sum_congr rfl fun i _ => sum_congr rfl fun j _ => by ring

/-! ## The loops -/

/-- Both accumulation loops: entry by entry a multiple is added. -/
theorem accumulate {n m : Nat} {sch : Nat → List Nat} (hs : ∀ i, i < n → IsSchedule (sch i) m)
    {G : Nat → List ℝ} (hG : ∀ i, i < n → (G i).length = m) (c : Nat → ℝ)
    {body : Nat → List ℝ → Res (List ℝ)}
    (hb : ∀ i g, i < n → body i g = parFor (sch i) g fun q g => do
      let a ← rd g q
      let b ← rd (G i) q
      wr g q (a + c i * b)) :
    (forRange 0 n (List.replicate m 0) body).Sat fun g =>
      g.length = m ∧ ∀ j, j < m → at0 g j = ∑ i ∈ range n, c i * at0 (G i) j := by
  refine forRange_inv (fun k (g : List ℝ) => g.length = m ∧
    ∀ j, j < m → at0 g j = ∑ i ∈ range k, c i * at0 (G i) j) (Nat.zero_le n) ?_ ?_
  · refine ⟨by simp, fun j hj => ?_⟩
    rw [at0_eq (by simpa using hj)]
    simp
  · rintro k g - hk ⟨hl, h⟩
    rw [hb k g hk]
    refine (parFor_map (hs k hk) (fun q a => a + c k * at0 (G k) q) (fun q y hq hy => ?_) hl).mono ?_
    · rw [rd_at0 (by omega), Res.ok_bind, rd_at0 (by rw [hG k hk]; exact hq), Res.ok_bind, wr_eq (by omega)]
    · rintro y ⟨hy, hv⟩
      refine ⟨hy, fun j hj => ?_⟩
      rw [hv j hj, h j hj, sum_range_succ]

theorem weightedValue_ok {n : Nat} {ws : List ℝ} (hw : ws.length = n) {val : Nat → Res ℝ} {v : Nat → ℝ}
    (hv : ∀ i, i < n → val i = .ok (v i)) :
    weightedValue n ws val = .ok (∑ i ∈ range n, at0 ws i * v i) := by
  refine (forRange_eq (fun k => ∑ i ∈ range k, at0 ws i * v i) fun k hk => ?_)
  rw [rd_at0 (by omega), Res.ok_bind, hv k hk, Res.ok_bind, sum_range_succ]
  rfl

theorem leastValue_ok {n : Nat} {L : LeastSquares} (hw : L.weights.length = n) (hg : L.gold.length = n)
    (hc : L.scale.length = n) {val : Nat → Res ℝ} {v : Nat → ℝ} (hv : ∀ i, i < n → val i = .ok (v i)) :
    leastValue n L val =
      .ok (∑ i ∈ range n, at0 L.weights i * ((v i - at0 L.gold i) / at0 L.scale i) ^ 2) := by
  refine (forRange_eq (fun k => ∑ i ∈ range k,
    at0 L.weights i * ((v i - at0 L.gold i) / at0 L.scale i) ^ 2) fun k hk => ?_)
  rw [rd_at0 (by omega), Res.ok_bind, rd_at0 (by omega), Res.ok_bind, rd_at0 (by omega), Res.ok_bind,
    hv k hk, Res.ok_bind, sum_range_succ]
  rfl

/-! ## Composition, for any way of supplying the components -/

theorem reports_weighted {n m : Nat} {ws : List ℝ} (hw : ws.length = n) {sch : Nat → List Nat}
    (hs : ∀ i, i < n → IsSchedule (sch i) m) {val : Nat → List ℝ → Res ℝ} {grad : Nat → Res (List ℝ)}
    {p : Fin m → ℝ} (h : ∀ i, i < n → Reports m (val i) (grad i) p) :
    Reports m (fun y => weightedValue n ws fun i => val i y) (weightedGrad n m ws sch grad) p := by
  choose! f G hv hg hl hd using h
  obtain ⟨g, hgr, hgl, hgv⟩ := accumulate hs hl (at0 ws)
    (body := fun i g => do
      let w ← rd ws i
      let gi ← grad i
      parFor (sch i) g fun q g => do
        let a ← rd g q
        let b ← rd gi q
        wr g q (a + w * b)) (fun i g hi => by
      rw [rd_at0 (by omega), Res.ok_bind, hg i hi, Res.ok_bind])
  refine ⟨fun y => ∑ i ∈ range n, at0 ws i * f i y, g, ?_, hgr, hgl, ?_⟩
  · have := (eventually_all_finset (range n)).2 fun i hi => hv i (mem_range.1 hi)
    filter_upwards [this] with y hy
    exact weightedValue_ok hw fun i hi => hy i (mem_range.2 hi)
  · rw [lin_congr hgv, lin_sum]
    exact HasFDerivAt.fun_sum fun i hi => (hd i (mem_range.1 hi)).const_mul (at0 ws i)

theorem reports_least {n m : Nat} {L : LeastSquares} (hw : L.weights.length = n) (hgo : L.gold.length = n)
    (hc : L.scale.length = n) {sch : Nat → List Nat} (hs : ∀ i, i < n → IsSchedule (sch i) m)
    {val : Nat → List ℝ → Res ℝ} {grad : Nat → Res (List ℝ)} {p : Fin m → ℝ}
    (h : ∀ i, i < n → Reports m (val i) (grad i) p) :
    Reports m (fun y => leastValue n L fun i => val i y)
      (leastGrad n m L sch (fun i => val i (List.ofFn p)) grad) p := by
  choose! f G hv hg hl hd using h
  obtain ⟨g, hgr, hgl, hgv⟩ := accumulate hs hl
    (fun i => 2 * at0 L.weights i * (f i p - at0 L.gold i) / (at0 L.scale i * at0 L.scale i))
    (body := fun i g => do
      let w ← rd L.weights i
      let gold ← rd L.gold i
      let c ← rd L.scale i
      let v ← val i (List.ofFn p)
      let gi ← grad i
      parFor (sch i) g fun q g => do
        let a ← rd g q
        let b ← rd gi q
        wr g q (a + 2 * w * (v - gold) * b / (c * c))) (fun i g hi => by
      rw [rd_at0 (by omega), Res.ok_bind, rd_at0 (by omega), Res.ok_bind, rd_at0 (by omega), Res.ok_bind,
        (hv i hi).self_of_nhds, Res.ok_bind, hg i hi, Res.ok_bind]
      congr 1
      funext q g
      congr 1
      funext a
      congr 1
      funext b
      congr 1
      ring)
  refine ⟨fun y => ∑ i ∈ range n, at0 L.weights i * ((f i y - at0 L.gold i) / at0 L.scale i) ^ 2, g, ?_, hgr,
    hgl, ?_⟩
  · have := (eventually_all_finset (range n)).2 fun i hi => hv i (mem_range.1 hi)
    filter_upwards [this] with y hy
    exact leastValue_ok hw hgo hc fun i hi => hy i (mem_range.2 hi)
  · rw [lin_congr hgv, lin_sum]
    refine HasFDerivAt.fun_sum fun i hi => ?_
    have h1 := (((hd i (mem_range.1 hi)).sub_const (at0 L.gold i)).mul_const (at0 L.scale i)⁻¹).pow 2
    have h2 := h1.const_mul (at0 L.weights i)
    simp only [div_eq_mul_inv]
    refine h2.congr_fderiv ?_
    ext y
    simp only [_root_.smul_apply, smul_eq_mul, nsmul_eq_mul]
    simp only [mul_inv, Nat.cast_ofNat, Nat.add_one_sub_one, pow_one]
    ring

theorem reports_quot {m : Nat} {order : List Nat} (hs : IsSchedule order m) {v₁ v₂ : List ℝ → Res ℝ}
    {g₁ g₂ : Res (List ℝ)} {p : Fin m → ℝ} (h₁ : Reports m v₁ g₁ p) (h₂ : Reports m v₂ g₂ p)
    (h0 : v₂ (List.ofFn p) ≠ .ok 0) :
    Reports m (fun y => quotValue (v₁ y) (v₂ y))
      (quotGrad m order (v₁ (List.ofFn p)) (v₂ (List.ofFn p)) g₁ g₂) p := by
  obtain ⟨f, g, hv, rfl, hl, hd⟩ := h₁
  obtain ⟨f', g', hv', rfl, hl', hd'⟩ := h₂
  have hp := hv.self_of_nhds
  have hp' := hv'.self_of_nhds
  have hne : f' p ≠ 0 := fun h => h0 (by rw [hp', h])
  obtain ⟨r, hr, hrl, hrv⟩ := parFor_map hs
    (body := fun q r => do
      let x ← rd g q
      let y ← rd g' q
      wr r q ((x * f' p - y * f p) / f' p ^ 2))
    (fun q _ => (at0 g q * f' p - at0 g' q * f p) / f' p ^ 2) (y0 := List.replicate m 0)
    (fun q y hq hy => by
      rw [rd_at0 (by omega), Res.ok_bind, rd_at0 (by omega), Res.ok_bind, wr_eq (by omega)]) (by simp)
  refine ⟨fun y => f y / f' y, r, ?_, ?_, hrl, ?_⟩
  · have hnear : ∀ᶠ y in 𝓝 p, f' y ≠ 0 := hd'.continuousAt.eventually_ne hne
    filter_upwards [hv, hv', hnear] with y h1 h2 h3
    unfold quotValue
    rw [h1, Res.ok_bind, h2, Res.ok_bind, if_neg h3]
    rfl
  · unfold quotGrad
    rw [hp, Res.ok_bind, hp', Res.ok_bind, Res.ok_bind, Res.ok_bind]
    exact hr
  · have := hd.mul ((hasDerivAt_inv hne).comp_hasFDerivAt p hd')
    simp only [div_eq_mul_inv]
    refine this.congr_fderiv ?_
    ext y
    simp only [_root_.add_apply, _root_.smul_apply, smul_eq_mul, lin_apply, mul_sum]
    rw [← sum_add_distrib]
    refine sum_congr rfl fun j _ => ?_
    rw [hrv j j.2]
    simp only [Function.comp_apply]
    field_simp
    ring

/-! ## The criteria -/

/-- The three gradients of a criterion at a solution, a control and a configuration, with the given
step and time step. -/
structure Differentiates (F : Criterion) (nx nu nz : Nat) (s : List (List ℝ)) (z : Fin nz → ℝ)
    (x : Fin nx → ℝ) (k : Nat) (u : Fin nu → ℝ) (dt : ℝ) : Prop where
  /-- `gradient_x` -/
  gradX : Reports nx (fun y => F.value s (List.ofFn z) y dt) (F.gradX s (List.ofFn z) (List.ofFn x) dt) x
  /-- `gradient_u` of step `k` -/
  gradU : Reports nu (fun y => F.value (s.set k y) (List.ofFn z) (List.ofFn x) dt)
    (F.gradU s (List.ofFn z) (List.ofFn x) k dt) u
  /-- `gradient_z` -/
  gradZ : Reports nz (fun y => F.value s y (List.ofFn x) dt) (F.gradZ s (List.ofFn z) (List.ofFn x) dt) z

/-- The same for criteria without a state. -/
structure GeoDifferentiates (F : GeoCriterion) (nx nz : Nat) (z : Fin nz → ℝ) (x : Fin nx → ℝ) : Prop where
  /-- `gradient_x` -/
  gradX : Reports nx (fun y => F.value (List.ofFn z) y) (F.gradX (List.ofFn z) (List.ofFn x)) x
  /-- `gradient_z` -/
  gradZ : Reports nz (fun y => F.value y (List.ofFn x)) (F.gradZ (List.ofFn z) (List.ofFn x)) z

theorem toOrdinal_zero : toOrdinal 0 = 0 := by simp [toOrdinal]

theorem set_self {s : List (List ℝ)} {k : Nat} {u : List ℝ} (h : s[k]? = some u) : s.set k u = s := by
  obtain ⟨hk, rfl⟩ := List.getElem?_eq_some_iff.1 h
  simp

section
variable {nx nu nz : Nat} {s : List (List ℝ)} {z : Fin nz → ℝ} {x : Fin nx → ℝ} {u : Fin nu → ℝ}
  {schX : Nat → List Nat}

theorem rd_mem {α : Type} {fs : List α} {i : Nat} (hi : i < fs.length) :
    rd fs i = .ok fs[i] ∧ fs[i] ∈ fs := ⟨rd_eq hi, List.getElem_mem hi⟩

/-- **C26, weighted sums.**  The gradients with respect to configuration and control are the
derivatives of the value, at every time step. -/
theorem C26_weighted_xz {fs : List Criterion} {ws : List ℝ} (hw : ws.length = fs.length)
    {sch : Nat → List Nat} {dt : ℝ} {k : Nat} :
    (∀ f ∈ fs, Differentiates f nx nu nz s z x k u dt) →
    ((∀ i, i < fs.length → IsSchedule (sch i) nx) →
      Reports nx (fun y => (weightedSum fs ws nx nu nz sch).value s (List.ofFn z) y dt)
        ((weightedSum fs ws nx nu nz sch).gradX s (List.ofFn z) (List.ofFn x) dt) x) ∧
    ((∀ i, i < fs.length → IsSchedule (sch i) nz) →
      Reports nz (fun y => (weightedSum fs ws nx nu nz sch).value s y (List.ofFn x) dt)
        ((weightedSum fs ws nx nu nz sch).gradZ s (List.ofFn z) (List.ofFn x) dt) z) := by
  intro h
  refine ⟨fun hs => reports_weighted hw hs fun i hi => ?_, fun hs => reports_weighted hw hs fun i hi => ?_⟩
  · obtain ⟨e, hm⟩ := rd_mem hi
    simp only [e, Res.ok_bind]
    exact (h _ hm).gradX
  · obtain ⟨e, hm⟩ := rd_mem hi
    simp only [e, Res.ok_bind]
    exact (h _ hm).gradZ

/-- **C26, weighted sums.**  The gradient with respect to the state of the first step at time step
zero, which is how `Elliptic::Problem` asks for it. -/
theorem C26_weighted_u {fs : List Criterion} {ws : List ℝ} (hw : ws.length = fs.length)
    {sch : Nat → List Nat} (hs : ∀ i, i < fs.length → IsSchedule (sch i) nu)
    (h : ∀ f ∈ fs, Differentiates f nx nu nz s z x 0 u 0) :
    Reports nu (fun y => (weightedSum fs ws nx nu nz sch).value (s.set 0 y) (List.ofFn z) (List.ofFn x) 0)
      ((weightedSum fs ws nx nu nz sch).gradU s (List.ofFn z) (List.ofFn x) 0 0) u := by
  refine reports_weighted hw hs fun i hi => ?_
  obtain ⟨e, hm⟩ := rd_mem hi
  simp only [e, Res.ok_bind, toOrdinal_zero]
  exact (h _ hm).gradU

/-- **C26, weighted sums of criteria without a state.** -/
theorem C26_geo_weighted {fs : List GeoCriterion} {ws : List ℝ} (hw : ws.length = fs.length)
    {schX schZ : Nat → List Nat} (hx : ∀ i, i < fs.length → IsSchedule (schX i) nx)
    (hz : ∀ i, i < fs.length → IsSchedule (schZ i) nz)
    (h : ∀ f ∈ fs, GeoDifferentiates f nx nz z x) :
    Reports nx (fun y => (geoWeightedSum fs ws nx nz schX).value (List.ofFn z) y)
      ((geoWeightedSum fs ws nx nz schX).gradX (List.ofFn z) (List.ofFn x)) x ∧
    Reports nz (fun y => (geoWeightedSum fs ws nx nz schZ).value y (List.ofFn x))
      ((geoWeightedSum fs ws nx nz schZ).gradZ (List.ofFn z) (List.ofFn x)) z := by
  refine ⟨reports_weighted hw hx fun i hi => ?_, reports_weighted hw hz fun i hi => ?_⟩
  · obtain ⟨e, hm⟩ := rd_mem hi
    simp only [e, Res.ok_bind]
    exact (h _ hm).gradX
  · obtain ⟨e, hm⟩ := rd_mem hi
    simp only [e, Res.ok_bind]
    exact (h _ hm).gradZ

/-- **C26, quotients.**  Configuration and control, at every time step, wherever the denominator is
not zero. -/
theorem C26_division_xz {f h : Criterion} {order : List Nat} {dt : ℝ} {k : Nat}
    (hf : Differentiates f nx nu nz s z x k u dt) (hh : Differentiates h nx nu nz s z x k u dt)
    (h0 : h.value s (List.ofFn z) (List.ofFn x) dt ≠ .ok 0) :
    (IsSchedule order nx →
      Reports nx (fun y => (division f h nx nu nz order).value s (List.ofFn z) y dt)
        ((division f h nx nu nz order).gradX s (List.ofFn z) (List.ofFn x) dt) x) ∧
    (IsSchedule order nz →
      Reports nz (fun y => (division f h nx nu nz order).value s y (List.ofFn x) dt)
        ((division f h nx nu nz order).gradZ s (List.ofFn z) (List.ofFn x) dt) z) :=
  ⟨fun hs => reports_quot hs hf.gradX hh.gradX h0, fun hs => reports_quot hs hf.gradZ hh.gradZ h0⟩

/-- **C26, quotients.**  The state of the first step at time step zero. -/
theorem C26_division_u {f h : Criterion} {order : List Nat} (hs : IsSchedule order nu)
    (h1 : s[0]? = some (List.ofFn u))
    (hf : Differentiates f nx nu nz s z x 0 u 0) (hh : Differentiates h nx nu nz s z x 0 u 0)
    (h0 : h.value s (List.ofFn z) (List.ofFn x) 0 ≠ .ok 0) :
    Reports nu (fun y => (division f h nx nu nz order).value (s.set 0 y) (List.ofFn z) (List.ofFn x) 0)
      ((division f h nx nu nz order).gradU s (List.ofFn z) (List.ofFn x) 0 0) u := by
  have := reports_quot hs hf.gradU hh.gradU (by rwa [set_self h1])
  simp only [set_self h1] at this
  simp only [division, toOrdinal_zero]
  exact this

/-- **C26, quotients of criteria without a state.** -/
theorem C26_geo_division {f h : GeoCriterion} {ox oz : List Nat} (hx : IsSchedule ox nx)
    (hz : IsSchedule oz nz) (hf : GeoDifferentiates f nx nz z x) (hh : GeoDifferentiates h nx nz z x)
    (h0 : h.value (List.ofFn z) (List.ofFn x) ≠ .ok 0) :
    Reports nx (fun y => (geoDivision f h nx nz ox).value (List.ofFn z) y)
      ((geoDivision f h nx nz ox).gradX (List.ofFn z) (List.ofFn x)) x ∧
    Reports nz (fun y => (geoDivision f h nx nz oz).value y (List.ofFn x))
      ((geoDivision f h nx nz oz).gradZ (List.ofFn z) (List.ofFn x)) z :=
  ⟨reports_quot hx hf.gradX hh.gradX h0, reports_quot hz hf.gradZ hh.gradZ h0⟩

/-- **C26, rejection.**  The value of a quotient is an error when the denominator is zero, for both
kinds of criteria. -/
theorem C26_division_rejects (f h : Criterion) (nx nu nz : Nat) (order : List Nat) (s : List (List ℝ))
    (z x : List ℝ) (dt : ℝ) {v : ℝ} (hf : f.value s z x dt = .ok v) (hh : h.value s z x dt = .ok 0) :
    ∃ m, (division f h nx nu nz order).value s z x dt = .err m := by
  refine ⟨"Denominator of division function evaluated to 0!", ?_⟩
  show quotValue _ _ = _
  unfold quotValue
  rw [hf, Res.ok_bind, hh, Res.ok_bind, if_pos rfl]
  rfl

theorem C26_geo_division_rejects (f h : GeoCriterion) (nx nz : Nat) (order : List Nat)
    (z x : List ℝ) {v : ℝ} (hf : f.value z x = .ok v) (hh : h.value z x = .ok 0) :
    ∃ m, (geoDivision f h nx nz order).value z x = .err m := by
  refine ⟨"Denominator of division function evaluated to 0!", ?_⟩
  show quotValue _ _ = _
  unfold quotValue
  rw [hf, Res.ok_bind, hh, Res.ok_bind, if_pos rfl]
  rfl

/-- **C26, least squares.**  Configuration and control, at every time step. -/
theorem C26_least_xz {fs : List Criterion} {L : LeastSquares} (hw : L.weights.length = fs.length)
    (hg : L.gold.length = fs.length) (hc : L.scale.length = fs.length) {sch : Nat → List Nat} {dt : ℝ} {k : Nat}
    (h : ∀ f ∈ fs, Differentiates f nx nu nz s z x k u dt) :
    ((∀ i, i < fs.length → IsSchedule (sch i) nx) →
      Reports nx (fun y => (leastSquares fs L nx nu nz sch).value s (List.ofFn z) y dt)
        ((leastSquares fs L nx nu nz sch).gradX s (List.ofFn z) (List.ofFn x) dt) x) ∧
    ((∀ i, i < fs.length → IsSchedule (sch i) nz) →
      Reports nz (fun y => (leastSquares fs L nx nu nz sch).value s y (List.ofFn x) dt)
        ((leastSquares fs L nx nu nz sch).gradZ s (List.ofFn z) (List.ofFn x) dt) z) := by
  refine ⟨fun hs => reports_least (val := fun i y => do let f ← rd fs i; f.value s (List.ofFn z) y dt)
      hw hg hc hs fun i hi => ?_,
    fun hs => reports_least (val := fun i y => do let f ← rd fs i; f.value s y (List.ofFn x) dt)
      hw hg hc hs fun i hi => ?_⟩
  · obtain ⟨e, hm⟩ := rd_mem hi
    simp only [e, Res.ok_bind]
    exact (h _ hm).gradX
  · obtain ⟨e, hm⟩ := rd_mem hi
    simp only [e, Res.ok_bind]
    exact (h _ hm).gradZ

/-- **C26, least squares.**  The state of the first step at time step zero. -/
theorem C26_least_u {fs : List Criterion} {L : LeastSquares} (hw : L.weights.length = fs.length)
    (hg : L.gold.length = fs.length) (hc : L.scale.length = fs.length) (hz : L.stateZero = false)
    {sch : Nat → List Nat} (hs : ∀ i, i < fs.length → IsSchedule (sch i) nu) (h1 : s[0]? = some (List.ofFn u))
    (h : ∀ f ∈ fs, Differentiates f nx nu nz s z x 0 u 0) :
    Reports nu (fun y => (leastSquares fs L nx nu nz sch).value (s.set 0 y) (List.ofFn z) (List.ofFn x) 0)
      ((leastSquares fs L nx nu nz sch).gradU s (List.ofFn z) (List.ofFn x) 0 0) u := by
  have := reports_least (val := fun i y => do let f ← rd fs i; f.value (s.set 0 y) (List.ofFn z) (List.ofFn x) 0)
    (grad := fun i => do let f ← rd fs i; f.gradU s (List.ofFn z) (List.ofFn x) 0 0)
    (p := u) hw hg hc hs fun i hi => by
      obtain ⟨e, hm⟩ := rd_mem hi
      simp only [e, Res.ok_bind]
      exact (h _ hm).gradU
  simp only [set_self h1] at this
  simp only [leastSquares, toOrdinal_zero, hz]
  exact this

/-- **C26, least squares of criteria without a state.** -/
theorem C26_geo_least {fs : List GeoCriterion} {L : LeastSquares} (hw : L.weights.length = fs.length)
    (hg : L.gold.length = fs.length) (hc : L.scale.length = fs.length) {schX schZ : Nat → List Nat}
    (hx : ∀ i, i < fs.length → IsSchedule (schX i) nx) (hz : ∀ i, i < fs.length → IsSchedule (schZ i) nz)
    (h : ∀ f ∈ fs, GeoDifferentiates f nx nz z x) :
    Reports nx (fun y => (geoLeastSquares fs L nx nz schX).value (List.ofFn z) y)
      ((geoLeastSquares fs L nx nz schX).gradX (List.ofFn z) (List.ofFn x)) x ∧
    Reports nz (fun y => (geoLeastSquares fs L nx nz schZ).value y (List.ofFn x))
      ((geoLeastSquares fs L nx nz schZ).gradZ (List.ofFn z) (List.ofFn x)) z := by
  refine ⟨reports_least (val := fun i y => do let f ← rd fs i; f.value (List.ofFn z) y)
      hw hg hc hx fun i hi => ?_,
    reports_least (val := fun i y => do let f ← rd fs i; f.value y (List.ofFn x))
      hw hg hc hz fun i hi => ?_⟩
  · obtain ⟨e, hm⟩ := rd_mem hi
    simp only [e, Res.ok_bind]
    exact (h _ hm).gradX
  · obtain ⟨e, hm⟩ := rd_mem hi
    simp only [e, Res.ok_bind]
    exact (h _ hm).gradZ

end
end Plato.Crit
