import Verif.Thermal.Model
import Verif.Mech.Cell

/-!
# Interpolation, projection, gradient, flux and divergence

Closed forms of the functors, and **C46**: projection to the nodes is the adjoint of interpolation from
the nodes.
-/

namespace Plato.Thermal
open Finset Plato Plato.Mech

variable {R : Type} [CommRing R]

/-! ## Specification -/

/-- Value at the integration point of a field with nodal values `U`. -/
def interp (npc : Nat) (B : Nat → R) (U : Nat → R) : R := ∑ n ∈ range npc, B n * U n

/-- Gradient of a scalar field. -/
def scalarField (d : Nat) (T : Nat → R) (G : Nat → Nat → R) (k : Nat) : R :=
  ∑ n ∈ range (d + 1), T n * G n k

/-- Flux of a conductivity. -/
def fourier (d : Nat) (K : Nat → Nat → R) (g : Nat → R) (i : Nat) : R := -∑ j ∈ range d, K i j * g j

/-! ## Closed forms -/

theorem accum1_ok {v : List R} {c : Nat} {a : R} (h : c < v.length) :
    accum1 v c a = .ok (v.set c (at0 v c + a)) := by
  unfold accum1
  rw [rd_at0 h, Res.ok_bind, wr_eq h]

theorem interpolate1_ok {npc ndof off c : Nat} {basis out : List R} {state : V2 R} (hc : c < out.length)
    (hb : npc ≤ basis.length) (hs : c < state.d0) (hs1 : ∀ n, n < npc → ndof * n + off < state.d1) :
    interpolate1 npc ndof off c basis state out =
      .ok (out.set c (interp npc (at0 basis) fun n => state.e c (ndof * n + off))) := by
  unfold interpolate1 interp
  rw [wr_eq hc, Res.ok_bind]
  have := forRange_eq (n := npc) (body := fun n out => do
      let b ← rd basis n
      let s ← vrd2 state c (ndof * n + off)
      accum1 out c (b * s))
    (fun k => out.set c (∑ n ∈ range k, at0 basis n * state.e c (ndof * n + off))) (by
      intro k hk
      rw [rd_at0 (by omega), Res.ok_bind, vrd2_ok hs (hs1 k hk), Res.ok_bind,
        accum1_ok (by rw [List.length_set]; exact hc), List.set_set, at0_set hc, if_pos rfl,
        sum_range_succ])
  rw [sum_range_zero] at this
  exact this

theorem interpolateN_ok {npc ndof off ndofs c : Nat} {basis : List R} {state out : V2 R} (hc : c < out.d0)
    (h1 : ndofs ≤ out.d1) (hb : npc ≤ basis.length) (hs : c < state.d0)
    (hs1 : ∀ n i, n < npc → i < ndofs → ndof * n + off + i < state.d1) :
    interpolateN npc ndof off ndofs c basis state out = .ok (out.row c fun i => if i < ndofs then
      interp npc (at0 basis) (fun n => state.e c (ndof * n + off + i)) else out.e c i) := by
  unfold interpolateN interp
  conv_lhs => rw [← V2.row_self out c]
  rw [forRange_row (fun i _ => ∑ n ∈ range npc, at0 basis n * state.e c (ndof * n + off + i))]
  intro i f hi
  rw [vwr2_row hc (by omega), Res.ok_bind,
    forRange_addrow (fun n => Pi.single i (at0 basis n * state.e c (ndof * n + off + i))) _ (by
      intro n f hn
      rw [rd_at0 (by omega), Res.ok_bind, vrd2_ok hs (hs1 n i hn hi), Res.ok_bind]
      exact accum2_row hc (by omega))]
  congr 2
  funext r
  by_cases h : r = i
  · subst h; simp
  · simp [h]

theorem projectN_ok {npc ndof off c : Nat} {vol basis : List R} {state out : V2 R} {scale : R}
    (hc : c < out.d0) (hb : npc ≤ basis.length) (hv : c < vol.length) (hs : c < state.d0)
    (h1 : ∀ n i, n < npc → i < state.d1 → ndof * n + i + off < out.d1) (f : Nat → R) :
    projectN npc ndof off c vol basis state (out.row c f) scale = .ok (out.row c (f +
      ∑ n ∈ range npc, ∑ i ∈ range state.d1, Pi.single (ndof * n + i + off)
        (scale * at0 basis n * state.e c i * at0 vol c))) := by
  unfold projectN
  refine forRange_addrow _ _ fun n f hn => forRange_addrow _ _ fun i f hi => ?_
  rw [rd_at0 (by omega), Res.ok_bind, vrd2_ok hs hi, Res.ok_bind, rd_at0 hv, Res.ok_bind]
  exact accum2_row hc (h1 n i hn hi)

theorem project1_ok {npc ndof off c : Nat} {vol basis state : List R} {out : V2 R} {scale : R}
    (hc : c < out.d0) (hb : npc ≤ basis.length) (hv : c < vol.length) (hs : c < state.length)
    (h1 : ∀ n, n < npc → ndof * n + off < out.d1) (f : Nat → R) :
    project1 npc ndof off c vol basis state (out.row c f) scale = .ok (out.row c (f +
      ∑ n ∈ range npc, Pi.single (ndof * n + off) (scale * at0 basis n * at0 state c * at0 vol c))) := by
  unfold project1
  refine forRange_addrow _ _ fun n f hn => ?_
  rw [rd_at0 (by omega), Res.ok_bind, rd_at0 hs, Res.ok_bind, rd_at0 hv, Res.ok_bind]
  exact accum2_row hc (h1 n hn)

theorem scalarGrad_ok {d c : Nat} {out state : V2 R} {g : V3 R} (hc : c < out.d0) (h1 : out.d1 = d)
    (hs : c < state.d0) (hs1 : d + 1 ≤ state.d1) (hg : c < g.d0) (hg1 : g.d1 = d + 1) (hg2 : g.d2 = d) :
    scalarGrad d c out state g = .ok (out.row c fun k => if k < d then
      scalarField d (state.e c) (g.e c) k else out.e c k) := by
  unfold scalarGrad scalarField
  conv_lhs => rw [← V2.row_self out c]
  rw [forRange_row (fun k _ => ∑ n ∈ range (d + 1), state.e c n * g.e c n k)]
  intro k f hk
  rw [vwr2_row hc (by omega), Res.ok_bind,
    forRange_addrow (fun n => Pi.single k (state.e c n * g.e c n k)) _ (by
      intro n f hn
      rw [vrd2_ok hs (by omega), Res.ok_bind, vrd3_ok hg (by omega) (by omega), Res.ok_bind]
      exact accum2_row hc (by omega))]
  congr 2
  funext r
  by_cases h : r = k
  · subst h; simp
  · simp [h]

theorem fluxLoop_ok {d c : Nat} {k : Nat → Nat → R} {flux grad : V2 R} (hc : c < flux.d0)
    (h1 : flux.d1 = d) (hg : c < grad.d0) (hg1 : grad.d1 = d) :
    fluxLoop d k c flux grad = .ok (flux.row c fun i => if i < d then
      fourier d k (grad.e c) i else flux.e c i) := by
  unfold fluxLoop fourier
  conv_lhs => rw [← V2.row_self flux c]
  rw [forRange_row (fun i _ => -∑ j ∈ range d, k i j * grad.e c j)]
  intro i f hi
  rw [vwr2_row hc (by omega), Res.ok_bind,
    forRange_addrow (fun j => Pi.single i (-(grad.e c j * k i j))) _ (by
      intro j f hj
      rw [vrd2_ok hg (by omega), Res.ok_bind, vrd2_row hc (by omega), Res.ok_bind, vwr2_row hc (by omega)]
      congr 2
      funext r
      by_cases h : r = i
      · subst h; simp [sub_eq_add_neg]
      · simp [h])]
  congr 2
  funext r
  by_cases h : r = i
  · subst h; simp [mul_comm]
  · simp [h]

theorem flux_ok {d c : Nat} {F : FluxLaw R} {flux grad : V2 R} {temp : List R} (hc : c < flux.d0)
    (h1 : flux.d1 = d) (hg : c < grad.d0) (hg1 : grad.d1 = d) (ht : c < temp.length) :
    F.flux d c flux grad temp = .ok (flux.row c fun i => if i < d then
      fourier d (F.cond (at0 temp c)) (grad.e c) i else flux.e c i) := by
  unfold FluxLaw.flux
  split_ifs with h
  · rw [rd_at0 ht, Res.ok_bind, fluxLoop_ok hc h1 hg hg1]
  · rw [fluxLoop_ok hc h1 hg hg1]
    have : F.cond (at0 temp c) = F.const := by
      funext i j
      simp [FluxLaw.cond, h]
    rw [this]

theorem fluxDivergence_ok {d ndof off c : Nat} {out flux : V2 R} {g : V3 R} {vol : List R} {scale : R}
    (hc : c < out.d0) (h1 : ∀ n, n < d + 1 → n * ndof + off < out.d1) (hf : c < flux.d0) (hf1 : flux.d1 = d)
    (hg : c < g.d0) (hg1 : g.d1 = d + 1) (hg2 : g.d2 = d) (hv : c < vol.length) (f : Nat → R) :
    fluxDivergence d ndof off c (out.row c f) flux g vol scale = .ok (out.row c (f +
      ∑ n ∈ range (d + 1), Pi.single (n * ndof + off)
        (scale * (∑ k ∈ range d, flux.e c k * g.e c n k) * at0 vol c))) := by
  unfold fluxDivergence
  refine forRange_addrow _ _ fun n f hn => ?_
  rw [forRange_addrow (fun k => Pi.single (n * ndof + off) (scale * flux.e c k * g.e c n k * at0 vol c)) _ (by
    intro k f hk
    rw [vrd2_ok hf (by omega), Res.ok_bind, vrd3_ok hg (by omega) (by omega), Res.ok_bind, rd_at0 hv,
      Res.ok_bind]
    exact accum2_row hc (h1 n hn))]
  congr 3
  funext r
  by_cases h : r = n * ndof + off
  · subst h; simp [mul_sum, sum_mul, mul_assoc]
  · simp [h]

theorem content_ok {m : MassLaw R} {c : Nat} {out rate temp : List R} (ho : c < out.length)
    (hr : c < rate.length) (ht : c < temp.length) :
    m.content c out rate temp = .ok (out.set c (if m.nonlinear then
      at0 rate c * m.rhoFn.at (at0 temp c) * m.cpFn.at (at0 temp c) else at0 rate c * m.rho * m.cp)) := by
  unfold MassLaw.content
  rw [rd_at0 ht, Res.ok_bind, rd_at0 hr, Res.ok_bind, wr_eq ho]

theorem applyWeighting1_ok [Div R] {npc c : Nat} {pen : R → R} {y : List R} {z : V2 R} (hz : c < z.d0)
    (hz1 : npc ≤ z.d1) (hy : c < y.length) :
    applyWeighting1 npc pen c y z = .ok (y.set c (at0 y c * pen (meanDensity npc (z.e c)))) := by
  unfold applyWeighting1
  rw [cellDensity_ok hz hz1, Res.ok_bind, rd_at0 hy, Res.ok_bind, wr_eq hy]

/-! ## C46 -/

theorem single_pairing {m : Nat} {p : Nat} (hp : p < m) (a : R) (W : Nat → R) :
    ∑ l ∈ range m, (Pi.single p a : Nat → R) l * W l = a * W p := by
  rw [sum_eq_single_of_mem p (mem_range.2 hp)]
  · rw [Pi.single_eq_same]
  · intro l _ hl
    rw [Pi.single_eq_of_ne hl, zero_mul]

/-- **C46**, scalar form: for every field `W` at the nodes of a cell and every value at its integration
point, what the projection adds to the nodes does on `W` the work of the value on the interpolation of
`W`, times scale and volume. -/
theorem C46_adjoint_scalar {npc ndof off c : Nat} {vol basis state tmp : List R} {out W : V2 R} {scale : R}
    (hc : c < out.d0) (hb : npc ≤ basis.length) (hv : c < vol.length) (hs : c < state.length)
    (ht : c < tmp.length) (h1 : ∀ n, n < npc → ndof * n + off < out.d1) (hW : c < W.d0)
    (hW1 : W.d1 = out.d1) :
    ∃ out' tmp', project1 npc ndof off c vol basis state out scale = .ok out' ∧
      interpolate1 npc ndof off c basis W tmp = .ok tmp' ∧
      out'.d0 = out.d0 ∧ out'.d1 = out.d1 ∧ (∀ r, r ≠ c → out'.e r = out.e r) ∧
      ∑ l ∈ range out.d1, out'.e c l * W.e c l =
        ∑ l ∈ range out.d1, out.e c l * W.e c l + scale * at0 vol c * (at0 state c * at0 tmp' c) := by
  have hp := project1_ok (scale := scale) hc hb hv hs h1 (out.e c)
  rw [V2.row_self] at hp
  refine ⟨_, _, hp, interpolate1_ok ht hb hW (fun n hn => hW1 ▸ h1 n hn), rfl, rfl, fun r hr => by simp [V2.row, hr], ?_⟩
  rw [at0_set ht, if_pos rfl]
  simp only [V2.row, if_true, Pi.add_apply, add_mul, sum_add_distrib, Finset.sum_apply, sum_mul]
  congr 1
  rw [sum_comm, sum_congr rfl fun n hn => single_pairing (h1 n (mem_range.1 hn)) _ _, interp, mul_sum,
    mul_sum]
  exact sum_congr rfl fun n _ => by ring

/-- **C46**, form with several components. -/
theorem C46_adjoint {npc ndof off c : Nat} {vol basis : List R} {state tmp out W : V2 R} {scale : R}
    (hc : c < out.d0) (hb : npc ≤ basis.length) (hv : c < vol.length) (hs : c < state.d0)
    (ht : c < tmp.d0) (ht1 : tmp.d1 = state.d1) (hoff : state.d1 + off ≤ ndof)
    (h1 : npc * ndof ≤ out.d1) (hW : c < W.d0) (hW1 : W.d1 = out.d1) :
    ∃ out' tmp', projectN npc ndof off c vol basis state out scale = .ok out' ∧
      interpolateN npc ndof off state.d1 c basis W tmp = .ok tmp' ∧
      out'.d0 = out.d0 ∧ out'.d1 = out.d1 ∧ (∀ r, r ≠ c → out'.e r = out.e r) ∧
      ∑ l ∈ range out.d1, out'.e c l * W.e c l = ∑ l ∈ range out.d1, out.e c l * W.e c l +
        scale * at0 vol c * ∑ i ∈ range state.d1, state.e c i * tmp'.e c i := by
  have hlt : ∀ n i, n < npc → i < state.d1 → ndof * n + i + off < out.d1 := by
    intro n i hn hi
    have : ndof * n + (i + off) < npc * ndof := block_lt (by omega) hn
    omega
  have hp := projectN_ok (scale := scale) hc hb hv hs hlt (out.e c)
  rw [V2.row_self] at hp
  refine ⟨_, _, hp, interpolateN_ok ht ht1.ge hb hW (fun n i hn hi => by have := hlt n i hn hi; omega), rfl, rfl, fun r hr => by simp [V2.row, hr], ?_⟩
  simp only [V2.row, if_true, Pi.add_apply, add_mul, sum_add_distrib, Finset.sum_apply, sum_mul]
  congr 1
  rw [sum_comm, mul_sum, sum_congr rfl fun n _ => sum_comm, sum_congr rfl fun n hn =>
    sum_congr rfl fun i hi => single_pairing (hlt n i (mem_range.1 hn) (mem_range.1 hi)) _ _, sum_comm]
  refine sum_congr rfl fun i hi => ?_
  rw [if_pos (mem_range.1 hi), interp, mul_sum, mul_sum]
  refine sum_congr rfl fun n _ => ?_
  rw [show ndof * n + off + i = ndof * n + i + off by omega]
  ring

/-- **C46**: gradient and flux divergence are adjoint: what the divergence adds to the nodes does on `W`
the work of the flux on the gradient of `W`. -/
theorem C46_divergence {d c : Nat} {vol : List R} {flux tmp out W : V2 R} {g : V3 R} {scale : R}
    (hc : c < out.d0) (h1 : out.d1 = d + 1) (hf : c < flux.d0) (hf1 : flux.d1 = d)
    (hg : c < g.d0) (hg1 : g.d1 = d + 1) (hg2 : g.d2 = d) (hv : c < vol.length) (ht : c < tmp.d0)
    (ht1 : tmp.d1 = d) (hW : c < W.d0) (hW1 : W.d1 = d + 1) :
    ∃ out' tmp', fluxDivergence d 1 0 c out flux g vol scale = .ok out' ∧
      scalarGrad d c tmp W g = .ok tmp' ∧
      out'.d0 = out.d0 ∧ out'.d1 = out.d1 ∧ (∀ r, r ≠ c → out'.e r = out.e r) ∧
      ∑ l ∈ range (d + 1), out'.e c l * W.e c l = ∑ l ∈ range (d + 1), out.e c l * W.e c l +
        scale * at0 vol c * ∑ k ∈ range d, flux.e c k * tmp'.e c k := by
  have hlt : ∀ n, n < d + 1 → n * 1 + 0 < out.d1 := fun n hn => by omega
  have hp := fluxDivergence_ok (scale := scale) hc hlt hf hf1 hg hg1 hg2 hv (out.e c)
  rw [V2.row_self] at hp
  refine ⟨_, _, hp, scalarGrad_ok ht ht1 hW hW1.ge hg hg1 hg2, rfl, rfl, fun r hr => by simp [V2.row, hr], ?_⟩
  simp only [V2.row, if_true, Pi.add_apply, add_mul, sum_add_distrib, Finset.sum_apply, sum_mul]
  congr 1
  rw [sum_comm, sum_congr rfl fun n hn => single_pairing (h1 ▸ hlt n (mem_range.1 hn)) _ _]
  simp only [mul_one, add_zero]
  have e : ∀ k ∈ range d, flux.e c k * (if k < d then scalarField d (W.e c) (g.e c) k else tmp.e c k) =
      ∑ n ∈ range (d + 1), flux.e c k * (W.e c n * g.e c n k) := by
    intro k hk
    rw [if_pos (mem_range.1 hk), scalarField, mul_sum]
  rw [sum_congr rfl e, sum_comm, mul_sum]
  refine sum_congr rfl fun n _ => ?_
  rw [mul_sum, mul_sum, sum_mul, sum_mul]
  exact sum_congr rfl fun k _ => by ring

end Plato.Thermal
