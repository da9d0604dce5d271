import Verif.Cond.Model
import Verif.J2.Local
import Verif.Blas.Matrix
import Verif.Blas.Vector
import Verif.Fem.AssemblyProps
import Verif.Fem.Residual
import Verif.Crit.Elastic
import Verif.Bnd.Value
import Verif.Mech.ElasticForm
import Mathlib.Tactic.Ring
import Mathlib.Tactic.Linarith

/-!
# Lemmas on the kernels of the condensed systems
-/

namespace Plato.Cond
open Finset Plato Plato.Mech Plato.J2 Plato.Plast

/-- A workset of `n` cells with `m` numbers each holds the numbers `f`. -/
def Is2 (n m : Nat) (f : Nat → Nat → ℝ) (w : V2 ℝ) : Prop :=
  w.d0 = n ∧ w.d1 = m ∧ ∀ c i, c < n → i < m → w.e c i = f c i

/-- A workset of `n` cells with `m × k` numbers each holds the numbers `f`. -/
def Is3 (n m k : Nat) (f : Nat → Nat → Nat → ℝ) (w : V3 ℝ) : Prop :=
  w.d0 = n ∧ w.d1 = m ∧ w.d2 = k ∧ ∀ c i j, c < n → i < m → j < k → w.e c i j = f c i j

section Kernels
variable {nC n m k : Nat} {o : List Nat} (hs : IsSchedule o nC) (hC : 0 < nC) (hn : 0 < n) (hm : 0 < m) (hk : 0 < k)
include hs hC hn hm

theorem Is2.size {f : Nat → Nat → ℝ} {w : V2 ℝ} (h : Is2 nC n f w) : 0 < w.size := by
  unfold V2.size; rw [h.1, h.2.1]; positivity

theorem Is3.size {f : Nat → Nat → Nat → ℝ} {w : V3 ℝ} (h : Is3 nC n m f w) : 0 < w.size := by
  unfold V3.size; rw [h.1, h.2.1, h.2.2.1]; positivity

include hk in
theorem multiply_ok {a b : Nat → Nat → Nat → ℝ} {A B : V3 ℝ} (hA : Is3 nC n k a A) (hB : Is3 nC k m b B) :
    (blas3.multiply o nC 1 A B 0 ⟨nC, n, m, fun _ _ _ => 0⟩).Sat
      (Is3 nC n m fun c i j => ∑ q ∈ range k, a c i q * b c q j) := by
  rw [blas3.C41_multiply hs ⟨hA.size hs hC hn hk, hB.size hs hC hk hm, by unfold V3.size; positivity,
    hA.2.2.1.trans hB.2.1.symm, hA.2.1, hB.2.2.1, hA.1, hB.1, rfl⟩]
  refine Res.Sat.ok ⟨rfl, rfl, rfl, fun c i j hc hi hj => ?_⟩
  dsimp only
  rw [if_pos ⟨hc, hi, hj⟩, zero_mul, zero_add, one_mul, hA.2.2.1]
  exact sum_congr rfl fun q hq => by
    rw [hA.2.2.2 c i q hc hi (mem_range.1 hq), hB.2.2.2 c q j hc (mem_range.1 hq) hj]

theorem update3_ok {a b : Nat → Nat → Nat → ℝ} {A B : V3 ℝ} (hA : Is3 nC n m a A) (hB : Is3 nC n m b B) :
    (blas3.update o nC (-1) A 1 B).Sat (Is3 nC n m fun c i j => b c i j - a c i j) := by
  rw [blas3.C41_update3_partial hs (hA.size hs hC hn hm) (hB.size hs hC hn hm) (hA.2.1.trans hB.2.1.symm)
    (hA.2.2.1.trans hB.2.2.1.symm) hC hA.1.ge hB.1.ge]
  refine Res.Sat.ok ⟨hB.1, hB.2.1, hB.2.2.1, fun c i j hc hi hj => ?_⟩
  dsimp only
  rw [if_pos ⟨hc, hB.2.1 ▸ hi, hB.2.2.1 ▸ hj⟩, hA.2.2.2 c i j hc hi hj, hB.2.2.2 c i j hc hi hj]
  ring

theorem mtvN_ok {a : Nat → Nat → Nat → ℝ} {x : Nat → Nat → ℝ} {A : V3 ℝ} {X : V2 ℝ} (hA : Is3 nC n m a A)
    (hX : Is2 nC m x X) :
    (blas2.matrixTimesVector o 'N' 1 A X 0 ⟨nC, n, fun _ _ => 0⟩).Sat
      (Is2 nC n fun c i => ∑ q ∈ range m, a c i q * x c q) := by
  rw [blas2.C41_mtv_partial (hA.1 ▸ hs) ⟨hA.size hs hC hn hm, hX.size hs hC hm hn, by unfold V2.size; positivity,
    hA.1.trans hX.1.symm, hA.1, Or.inl rfl⟩ (Or.inl rfl) (by rw [hA.2.2.1, hX.2.1]) (by rw [hA.2.1])]
  refine Res.Sat.ok ⟨rfl, rfl, fun c i hc hi => ?_⟩
  dsimp only
  rw [hA.1, hA.2.1, hA.2.2.1, if_pos ⟨hc, hi⟩, zero_mul, zero_add, one_mul]
  exact sum_congr rfl fun q hq => by
    rw [hA.2.2.2 c i q hc hi (mem_range.1 hq), hX.2.2 c q hc (mem_range.1 hq)]

theorem mtvT_ok {alpha beta : ℝ} {a : Nat → Nat → Nat → ℝ} {x y : Nat → Nat → ℝ} {A : V3 ℝ} {X Y : V2 ℝ}
    (hA : Is3 nC n m a A) (hX : Is2 nC n x X) (hY : Is2 nC m y Y) :
    (blas2.matrixTimesVector o 'T' alpha A X beta Y).Sat
      (Is2 nC m fun c i => beta * y c i + alpha * ∑ q ∈ range n, a c q i * x c q) := by
  rw [blas2.C41_mtvT_partial (hA.1 ▸ hs) ⟨hA.size hs hC hn hm, hX.size hs hC hn hm, hY.size hs hC hm hn,
    hA.1.trans hX.1.symm, hA.1.trans hY.1.symm, Or.inr (Or.inr (Or.inl rfl))⟩ (Or.inl rfl) (by rw [hA.2.1, hX.2.1])
    (by rw [hA.2.2.1, hY.2.1])]
  refine Res.Sat.ok ⟨hY.1, hY.2.1, fun c i hc hi => ?_⟩
  dsimp only
  rw [hA.1, hA.2.1, hA.2.2.1, if_pos ⟨hc, hi⟩, hY.2.2 c i hc hi]
  congr 2
  exact sum_congr rfl fun q hq => by
    rw [hA.2.2.2 c q i hc (mem_range.1 hq) hi, hX.2.2 c q hc (mem_range.1 hq)]

omit hm in
theorem update2_ok {a b : ℝ} {x y : Nat → Nat → ℝ} {X Y : V2 ℝ} (hX : Is2 nC n x X) (hY : Is2 nC n y Y) :
    (blas2.update o a X b Y).Sat (Is2 nC n fun c i => a * x c i + b * y c i) := by
  rw [blas2.C41_update2 (hX.1 ▸ hs), if_neg (not_not.2 (hX.1.trans hY.1.symm)),
    if_neg (not_not.2 (hX.2.1.trans hY.2.1.symm))]
  refine Res.Sat.ok ⟨hY.1, hY.2.1, fun c i hc hi => ?_⟩
  dsimp only
  rw [hY.1, hY.2.1, if_pos ⟨hc, hi⟩, hX.2.2 c i hc hi, hY.2.2 c i hc hi]

end Kernels

theorem Is2.zero (n m : Nat) : Is2 n m (fun _ _ => 0) ⟨n, m, fun _ _ => 0⟩ := ⟨rfl, rfl, fun _ _ _ _ => rfl⟩

theorem Is2.congr {n m : Nat} {f g : Nat → Nat → ℝ} {w : V2 ℝ} (h : Is2 n m f w)
    (e : ∀ c i, c < n → i < m → f c i = g c i) : Is2 n m g w :=
  ⟨h.1, h.2.1, fun c i hc hi => (h.2.2 c i hc hi).trans (e c i hc hi)⟩

theorem domOk_none (nc : Nat) : DomOk none nc nc := ⟨fun _ h => h, fun _ h => by cases h⟩

/-- The scattered matrix times a vector is the scattered product of the matrices of the cells. -/
theorem scatteredRect_times {npc dr ds nc n : Nat} {c2n : List Nat} (hm : Mesh c2n npc nc n) (hd : 0 < ds)
    (J : Nat → Nat → Nat → ℝ) (u : Nat → ℝ) (q : Nat) :
    ∑ j ∈ range (n * ds), scattered npc dr ds c2n none nc J q j * u j =
      scatteredVec npc dr c2n none nc (fun c l => ∑ s ∈ range (npc * ds), J c l s * u (cellDof npc ds c2n c s)) q := by
  unfold scattered scatteredVec
  simp only [sum_mul]
  rw [sum_comm]
  refine sum_congr rfl fun c hc => ?_
  rw [sum_comm]
  refine sum_congr rfl fun l hl => ?_
  rw [sum_comm]
  show _ = if cellDof npc dr c2n c l = q then _ else (0 : ℝ)
  split_ifs with h
  · refine sum_congr rfl fun s hs => ?_
    have hlt : cellDof npc ds c2n c s < n * ds := by
      have h1 : s / ds < npc := Nat.div_lt_of_lt_mul (by rw [Nat.mul_comm]; exact mem_range.1 hs)
      have h2 := hm.node_lt (mem_range.1 hc) h1
      have h3 := Nat.mod_lt s hd
      unfold cellDof
      calc ds * cellNode npc c2n c (s / ds) + s % ds < ds * cellNode npc c2n c (s / ds) + ds := by omega
        _ = ds * (cellNode npc c2n c (s / ds) + 1) := by ring
        _ ≤ ds * n := Nat.mul_le_mul_left _ h2
        _ = n * ds := Nat.mul_comm _ _
    rw [sum_eq_single_of_mem _ (mem_range.2 hlt)]
    · rw [if_pos ⟨h, rfl⟩]
    · intro j _ hj
      rw [if_neg (fun hh => hj hh.2.symm), zero_mul]
  · refine sum_eq_zero fun s _ => sum_eq_zero fun j _ => ?_
    rw [if_neg (fun hh => h hh.1), zero_mul]

/-- The transpose of the scattered matrix times a vector. -/
theorem scatteredRect_timesT {npc dr ds nc n : Nat} {c2n : List Nat} (hm : Mesh c2n npc nc n) (hd : 0 < dr)
    (J : Nat → Nat → Nat → ℝ) (u : Nat → ℝ) (q : Nat) :
    ∑ j ∈ range (n * dr), scattered npc dr ds c2n none nc J j q * u j =
      scatteredVec npc ds c2n none nc (fun c s => ∑ l ∈ range (npc * dr), J c l s * u (cellDof npc dr c2n c l)) q := by
  rw [← scatteredRect_times hm hd (fun c l s => J c s l) u q]
  refine sum_congr rfl fun j _ => ?_
  congr 1
  unfold scattered
  refine sum_congr rfl fun c _ => ?_
  rw [sum_comm]
  refine sum_congr rfl fun l _ => sum_congr rfl fun s _ => ?_
  simp only [and_comm]

theorem scattered_times {npc d nc n : Nat} {c2n : List Nat} (hm : Mesh c2n npc nc n) (hd : 0 < d)
    (J : Nat → Nat → Nat → ℝ) (u : Nat → ℝ) (q : Nat) :
    ∑ j ∈ range (n * d), scattered npc d d c2n none nc J q j * u j =
      scatteredVec npc d c2n none nc (fun c l => ∑ s ∈ range (npc * d), J c l s * u (cellDof npc d c2n c s)) q :=
  scatteredRect_times hm hd J u q

theorem scattered_timesT {npc d nc n : Nat} {c2n : List Nat} (hm : Mesh c2n npc nc n) (hd : 0 < d)
    (J : Nat → Nat → Nat → ℝ) (u : Nat → ℝ) (q : Nat) :
    ∑ j ∈ range (n * d), scattered npc d d c2n none nc J j q * u j =
      scatteredVec npc d c2n none nc (fun c l => ∑ s ∈ range (npc * d), J c s l * u (cellDof npc d c2n c s)) q :=
  scatteredRect_timesT hm hd J u q

end Plato.Cond
