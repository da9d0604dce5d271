import Mathlib.Data.Finset.Insert
import Mathlib.Data.Finset.Range
import Mathlib.Data.List.Perm.Basic
import Verif.Common.Res

/-!
# Schedules of parallel loops
-/

namespace Plato

universe u

/-- `order` is a schedule of the parallel loop over `0 .. n-1`: every index exactly once. -/
def IsSchedule (order : List Nat) (n : Nat) : Prop := order.Perm (List.range n)

theorem IsSchedule.range (n : Nat) : IsSchedule (List.range n) n := List.Perm.refl _

theorem IsSchedule.reverse (n : Nat) : IsSchedule (List.range n).reverse n :=
  List.reverse_perm _

/-- Invariant rule for a parallel loop under every schedule; `D` is the set of finished
indices. -/
theorem parFor_sched {σ : Type u} {body : Nat → σ → Res σ} {order : List Nat} {n : Nat}
    (hs : IsSchedule order n) (P : Finset Nat → σ → Prop) {s : σ} (h0 : P ∅ s)
    (hb : ∀ (D : Finset Nat) (i : Nat) (s : σ), i < n → i ∉ D → D ⊆ Finset.range n → P D s →
      (body i s).Sat (P (insert i D))) :
    (parFor order s body).Sat (P (Finset.range n)) := by
  have key := parFor_inv (body := body) (fun d s => P d.toFinset s) order [] s (by simpa using h0)
    (by
      intro d i rest s heq hp
      simp only [List.nil_append] at heq
      have hnd : order.Nodup := (hs.nodup_iff).2 List.nodup_range
      have hi : i ∈ order := by rw [heq]; simp
      have hin : i < n := List.mem_range.1 (hs.mem_iff.1 hi)
      have hid : i ∉ d := by
        rw [heq] at hnd
        rw [List.nodup_append] at hnd
        intro hmem
        exact hnd.2.2 i hmem i (by simp) rfl
      have hsub : d.toFinset ⊆ Finset.range n := by
        intro x hx
        have : x ∈ order := by rw [heq]; simp [List.mem_toFinset.1 hx]
        exact Finset.mem_range.2 (List.mem_range.1 (hs.mem_iff.1 this))
      refine (hb d.toFinset i s hin (by simpa using hid) hsub hp).mono ?_
      intro s' hs'
      have : (d ++ [i]).toFinset = insert i d.toFinset := by
        ext x; simp [or_comm]
      rwa [this])
  refine key.mono ?_
  intro s' h
  have : order.toFinset = Finset.range n := by
    ext x; simp [hs.mem_iff]
  simpa [this] using h

/-- Rule for parallel loops whose iterations write disjoint data: iteration `i` establishes
`Post i` and keeps `Post j` for the other iterations. -/
theorem parFor_posts {σ : Type u} {body : Nat → σ → Res σ} {order : List Nat} {n : Nat}
    (hs : IsSchedule order n) (Inv : σ → Prop) (Post : Nat → σ → Prop) {s : σ} (h0 : Inv s)
    (hb : ∀ (i : Nat) (s : σ), i < n → Inv s → (body i s).Sat fun s' =>
      Inv s' ∧ Post i s' ∧ ∀ j, j < n → j ≠ i → Post j s → Post j s') :
    (parFor order s body).Sat fun s' => Inv s' ∧ ∀ i, i < n → Post i s' := by
  refine (parFor_sched hs (fun D s => Inv s ∧ ∀ i ∈ D, Post i s) ⟨h0, by simp⟩ ?_).mono ?_
  · rintro D i s hi hD hsub ⟨hinv, hpost⟩
    refine (hb i s hi hinv).mono ?_
    rintro s' ⟨h1, h2, h3⟩
    refine ⟨h1, ?_⟩
    intro j hj
    rcases Finset.mem_insert.1 hj with rfl | hj'
    · exact h2
    · exact h3 j (Finset.mem_range.1 (hsub hj')) (by rintro rfl; exact hD hj') (hpost j hj')
  · rintro s' ⟨h1, h2⟩
    exact ⟨h1, fun i hi => h2 i (Finset.mem_range.2 hi)⟩

end Plato
