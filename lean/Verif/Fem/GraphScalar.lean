import Verif.Fem.Graph

/-!
# C05: the scalar matrix graph (`CreateMatrix`)
-/

namespace Plato
open Finset
variable {K : Type}

theorem scalarCols_sat {orm oab : List Nat} {n : Nat} (h : Adjacency orm oab n) {row d : Nat}
    (hrow : row < n) (hd : 0 < d) (cols : List Nat)
    (hl : cols.length = (oab.length + n) * (d * d)) :
    (forRange 0 (atN orm (row + 1) + row + 1 - (atN orm row + row)) (0, cols)
      (scalarColStep d oab (atN orm row) (atN orm (row + 1)) row)).Sat fun s =>
      s.2.length = cols.length ∧
      (∀ t x, t < atN orm (row + 1) - atN orm row + 1 → x < d →
        atN s.2 (d * d * (atN orm row + row) + d * t + x) = d * spliceAt orm oab row t + x) ∧
      ∀ e, (e < d * d * (atN orm row + row) ∨
        d * d * (atN orm row + row) + d * (atN orm (row + 1) - atN orm row + 1) ≤ e) →
        atN s.2 e = atN cols e := by
  have hp := diagPos_le orm oab row
  have hle := h.le (row + 1) n (by omega) (Nat.le_refl _)
  rw [h.last] at hle
  have hm := h.mono row hrow
  set R0 := atN orm row + row with hR0
  have hlen : atN orm (row + 1) + row + 1 - R0 = atN orm (row + 1) - atN orm row + 1 := by omega
  rw [hlen]
  set N := atN orm (row + 1) - atN orm row + 1 with hN
  have hroom : d * d * R0 + d * N ≤ cols.length := by
    rw [hl, Nat.mul_comm _ (d * d)]
    have h1 : d * d * (R0 + N) ≤ d * d * (oab.length + n) := Nat.mul_le_mul_left _ (by omega)
    rw [Nat.mul_add] at h1
    have h2 : d * N ≤ d * d * N := Nat.mul_le_mul_right _ (Nat.le_mul_of_pos_left _ hd)
    omega
  -- writing one node worth of columns
  have inner : ∀ (i c : Nat) (cs : List Nat) (f : Nat → List Nat → Res (List Nat)), i < N →
      cs.length = cols.length →
      (∀ x s, x < d → s.length = cols.length → f x s = wr s (d * d * R0 + d * i + x) (d * c + x)) →
      (forRange 0 d cs f).Sat fun s =>
        s.length = cols.length ∧ (∀ x, x < d → atN s (d * d * R0 + d * i + x) = d * c + x) ∧
        ∀ e, (e < d * d * R0 + d * i ∨ d * d * R0 + d * i + d ≤ e) → atN s e = atN cs e := by
    intro i c cs f hi hcs hf
    have hb : d * i + d ≤ d * N := by
      have := Nat.mul_le_mul_left d (Nat.succ_le_of_lt hi); rw [Nat.mul_succ] at this; omega
    refine (forRange_inv (fun x s => s.length = cols.length ∧
      (∀ y, y < x → atN s (d * d * R0 + d * i + y) = d * c + y) ∧
      ∀ e, (e < d * d * R0 + d * i ∨ d * d * R0 + d * i + x ≤ e) → atN s e = atN cs e)
      (Nat.zero_le _) ⟨hcs, by omega, fun _ _ => rfl⟩ ?_)
    rintro x s - hx ⟨g1, g2, g3⟩
    rw [hf x s hx g1, wr_eq (by omega)]
    refine Res.Sat.ok ⟨by simpa using g1, ?_, ?_⟩
    · intro y hy
      rw [atN_set (by omega)]
      by_cases c' : y = x
      · rw [if_pos (by omega), c']
      · rw [if_neg (by omega)]; exact g2 y (by omega)
    · intro e he
      rw [atN_set (by omega), if_neg (by omega)]; exact g3 e (by omega)
  refine (forRange_inv (fun i (s : Nat × List Nat) =>
    s.1 = (if i ≤ diagPos orm oab row then i else i - 1) ∧ s.2.length = cols.length ∧
    (∀ t x, t < i → x < d →
      atN s.2 (d * d * R0 + d * t + x) = d * spliceAt orm oab row t + x) ∧
    ∀ e, (e < d * d * R0 ∨ d * d * R0 + d * i ≤ e) → atN s.2 e = atN cols e)
    (Nat.zero_le _) ⟨by simp, rfl, by omega, fun _ _ => rfl⟩ ?_).mono ?_
  · rintro i ⟨ioh, cs⟩ - hi ⟨h1, h2, h3, h4⟩
    simp only at h1 h2 h3 h4
    unfold scalarColStep
    simp only
    rw [h1, insertDiagonal_eq h hrow hi]
    simp only [Res.ok_bind]
    have hstep : ∀ t, t < i → d * t + d ≤ d * i := by
      intro t ht
      have := Nat.mul_le_mul_left d (Nat.succ_le_of_lt ht); rw [Nat.mul_succ] at this; omega
    have key : ∀ cs' c ioh', c = spliceAt orm oab row i →
        ioh' = (if i + 1 ≤ diagPos orm oab row then i + 1 else i + 1 - 1) →
        (cs'.length = cols.length ∧ (∀ x, x < d → atN cs' (d * d * R0 + d * i + x) = d * c + x) ∧
        ∀ e, (e < d * d * R0 + d * i ∨ d * d * R0 + d * i + d ≤ e) → atN cs' e = atN cs e) →
        ioh' = (if i + 1 ≤ diagPos orm oab row then i + 1 else i + 1 - 1) ∧
        cs'.length = cols.length ∧
        (∀ t x, t < i + 1 → x < d →
          atN cs' (d * d * R0 + d * t + x) = d * spliceAt orm oab row t + x) ∧
        ∀ e, (e < d * d * R0 ∨ d * d * R0 + d * (i + 1) ≤ e) → atN cs' e = atN cols e := by
      rintro cs' c ioh' hc hioh ⟨k1, k2, k3⟩
      refine ⟨hioh, k1, ?_, ?_⟩
      · intro t x ht hx
        by_cases ct : t = i
        · rw [ct, k2 x hx, hc]
        · have := hstep t (by omega)
          rw [k3 _ (by omega)]
          exact h3 t x (by omega) hx
      · intro e he
        rw [Nat.mul_succ] at he
        rw [k3 e (by omega)]
        exact h4 e (by omega)
    by_cases c : i = diagPos orm oab row
    · rw [if_pos (by simpa using c)]
      refine Res.Sat.bind (inner i row cs _ hi h2 (fun x s _ _ => rfl)) ?_
      intro cs' hcs'
      refine Res.Sat.ok (key cs' row _ ?_ ?_ hcs')
      · unfold spliceAt; rw [if_neg (by omega), if_pos c]
      · rw [if_pos (by omega), if_neg (by omega)]; omega
    · rw [if_neg (by simpa using c)]
      set ioh0 := (if i ≤ diagPos orm oab row then i else i - 1) with hioh0
      have hio : ioh0 + atN orm row < oab.length := by rw [hioh0]; split <;> omega
      refine Res.Sat.bind (inner i (atN oab (ioh0 + atN orm row)) cs _ hi h2 ?_) ?_
      · intro x s _ _
        rw [rd_atN hio]
        rfl
      · intro cs' hcs'
        refine Res.Sat.ok (key cs' _ _ ?_ ?_ hcs')
        · unfold spliceAt
          by_cases c2 : i < diagPos orm oab row
          · rw [hioh0, if_pos (by omega), if_pos c2, Nat.add_comm]
          · rw [hioh0, if_neg (by omega), if_neg c2, if_neg c, Nat.add_comm]
        · by_cases c2 : i < diagPos orm oab row
          · rw [hioh0, if_pos (by omega), if_pos (by omega)]
          · rw [hioh0, if_neg (by omega), if_neg (by omega)]; omega
  · rintro s ⟨-, h2, h3, h4⟩
    exact ⟨h2, h3, h4⟩

/-- Copy of the first scalar row of a node to its other scalar rows. -/
theorem scalarCopy_sat {off d W : Nat} (cols : List Nat) (hW : off + d * W ≤ cols.length)
    (hd : 0 < d) :
    (forRange 0 W cols fun iDof cols => forRange 1 d cols fun jDof cols => do
      let c ← rd cols (off + iDof)
      wr cols (off + jDof * W + iDof) c).Sat fun s =>
      s.length = cols.length ∧
      (∀ j x, j < d → x < W → atN s (off + j * W + x) = atN cols (off + x)) ∧
      ∀ e, (e < off ∨ off + d * W ≤ e) → atN s e = atN cols e := by
  have hblk : ∀ j x, j < d → x < W → j * W + x < d * W := by
    intro j x hj hx; rw [Nat.mul_comm j]; exact block_lt hx hj
  have huniq : ∀ j x j' x', x < W → x' < W → j * W + x = j' * W + x' → j = j' ∧ x = x' := by
    intro j x j' x' hx hx' he
    have e1 : (j * W + x) / W = j := by rw [Nat.mul_comm]; exact div_block hx
    have e2 : (j' * W + x') / W = j' := by rw [Nat.mul_comm]; exact div_block hx'
    rw [he, e2] at e1
    subst e1
    exact ⟨rfl, by omega⟩
  refine (forRange_inv (fun i s => s.length = cols.length ∧
    (∀ x, x < W → atN s (off + x) = atN cols (off + x)) ∧
    (∀ j x, j < d → x < i → atN s (off + j * W + x) = atN cols (off + x)) ∧
    ∀ e, (e < off ∨ off + d * W ≤ e) → atN s e = atN cols e)
    (Nat.zero_le _) ⟨rfl, fun _ _ => rfl, by omega, fun _ _ => rfl⟩ ?_).mono ?_
  · rintro i s - hi ⟨h1, h2, h3, h4⟩
    refine (forRange_inv (fun J s' => s'.length = cols.length ∧
      (∀ x, x < W → atN s' (off + x) = atN cols (off + x)) ∧
      (∀ j x, j < d → x < i → atN s' (off + j * W + x) = atN cols (off + x)) ∧
      (∀ j, j < J → atN s' (off + j * W + i) = atN cols (off + i)) ∧
      ∀ e, (e < off ∨ off + d * W ≤ e) → atN s' e = atN cols e)
      (by omega) ⟨h1, h2, h3, ?_, h4⟩ ?_).mono ?_
    · intro j hj
      have : j = 0 := by omega
      subst this
      rw [Nat.zero_mul, Nat.add_zero]; exact h2 i hi
    · rintro J s' hJ1 hJ ⟨g1, g2, g3, g4, g5⟩
      have hb := hblk J i hJ hi
      have h0 := hblk 0 i hd hi
      rw [rd_atN (by omega)]
      simp only [Res.ok_bind]
      rw [wr_eq (by omega)]
      refine Res.Sat.ok ⟨by simpa using g1, ?_, ?_, ?_, ?_⟩
      · intro x hx
        rw [atN_set (by omega), if_neg]
        · exact g2 x hx
        · intro he
          have := huniq 0 x J i hx hi (by omega)
          omega
      · intro j x hj hx
        rw [atN_set (by omega), if_neg]
        · exact g3 j x hj hx
        · intro he
          have := huniq j x J i (by omega) hi (by omega)
          omega
      · intro j hj
        rw [atN_set (by omega)]
        by_cases c : j = J
        · rw [if_pos (by rw [c]), g2 i hi]
        · rw [if_neg]
          · exact g4 j (by omega)
          · intro he
            exact c (huniq j i J i hi hi (by omega)).1
      · intro e he
        rw [atN_set (by omega), if_neg (by omega)]
        exact g5 e he
    · rintro s' ⟨g1, g2, g3, g4, g5⟩
      refine ⟨g1, g2, ?_, g5⟩
      intro j x hj hx
      by_cases c : x = i
      · rw [c]; exact g4 j hj
      · exact g3 j x hj (by omega)
  · rintro s ⟨h1, -, h3, h4⟩
    exact ⟨h1, h3, h4⟩

theorem scalarRowMap_sat {d W off : Nat} (row : Nat) (rm : List Nat) (hr : d * row + d < rm.length) :
    (forRange 0 (d + 1) rm fun iDof rm => wr rm (d * row + iDof) (off + iDof * W)).Sat fun s =>
      s.length = rm.length ∧ (∀ x, x ≤ d → atN s (d * row + x) = off + x * W) ∧
      ∀ e, (e < d * row ∨ d * row + d < e) → atN s e = atN rm e := by
  refine (forRange_inv (fun i s => s.length = rm.length ∧
    (∀ x, x < i → atN s (d * row + x) = off + x * W) ∧
    ∀ e, (e < d * row ∨ d * row + i ≤ e) → atN s e = atN rm e)
    (Nat.zero_le _) ⟨rfl, by omega, fun _ _ => rfl⟩ ?_).mono ?_
  · rintro i s - hi ⟨h1, h2, h3⟩
    rw [wr_eq (by omega)]
    refine Res.Sat.ok ⟨by simpa using h1, ?_, ?_⟩
    · intro x hx
      rw [atN_set (by omega)]
      by_cases c : x = i
      · rw [if_pos (by omega), c]
      · rw [if_neg (by omega)]; exact h2 x (by omega)
    · intro e he
      rw [atN_set (by omega), if_neg (by omega)]; exact h3 e (by omega)
  · rintro s ⟨h1, h2, h3⟩
    exact ⟨h1, fun x hx => h2 x (by omega), fun e he => h3 e (by omega)⟩

theorem createMatrix_sat [Zero K] {orm oab : List Nat} {n : Nat} (h : Adjacency orm oab n)
    {d : Nat} (hd : 0 < d) {o : List Nat} (ho : IsSchedule o n) :
    (createMatrix (K := K) d o orm oab).Sat fun A =>
      A.rowMap.length = n * d + 1 ∧ A.cols.length = (oab.length + n) * (d * d) ∧
      A.vals = List.replicate ((oab.length + n) * (d * d)) 0 ∧ A.numRows? = none ∧
      A.numCols? = none ∧ A.rpb = 1 ∧ A.cpb = 1 ∧ atN A.rowMap 0 = 0 ∧
      (∀ I x, I < n → x ≤ d → atN A.rowMap (d * I + x) =
        d * d * (atN orm I + I) + x * ((atN orm (I + 1) - atN orm I + 1) * d)) ∧
      (∀ I j t x, I < n → j < d → t < atN orm (I + 1) - atN orm I + 1 → x < d →
        atN A.cols (d * d * (atN orm I + I) + j * ((atN orm (I + 1) - atN orm I + 1) * d) +
          (d * t + x)) = d * spliceAt orm oab I t + x) := by
  unfold createMatrix
  have hn : orm.length - 1 = n := by rw [h.length]; rfl
  simp only [hn]
  refine Res.Sat.bind (P := fun st : List Nat × List Nat =>
    (st.1.length = n * d + 1 ∧ st.2.length = (oab.length + n) * (d * d) ∧ atN st.1 0 = 0) ∧
    ∀ I, I < n → (∀ x, x ≤ d → atN st.1 (d * I + x) =
        d * d * (atN orm I + I) + x * ((atN orm (I + 1) - atN orm I + 1) * d)) ∧
      ∀ j t x, j < d → t < atN orm (I + 1) - atN orm I + 1 → x < d →
        atN st.2 (d * d * (atN orm I + I) + j * ((atN orm (I + 1) - atN orm I + 1) * d) +
          (d * t + x)) = d * spliceAt orm oab I t + x) ?_ ?_
  · refine parFor_posts ho _ _ ⟨by simp, by simp, by simp [atN, at0]⟩ ?_
    rintro row ⟨rm, cols⟩ hrow ⟨h1, h2, h3⟩
    simp only at h1 h2 h3
    have hm := h.mono row hrow
    have hle := h.le (row + 1) n (by omega) (Nat.le_refl _)
    rw [h.last] at hle
    unfold scalarGraphRow
    rw [rd_atN (by rw [h.length]; omega), rd_atN (by rw [h.length]; omega)]
    simp only [Res.ok_bind]
    have hN : atN orm (row + 1) + row + 1 - (atN orm row + row) =
        atN orm (row + 1) - atN orm row + 1 := by omega
    have hrmlen : d * row + d < rm.length := by
      rw [h1]
      have := Nat.mul_le_mul_left d (Nat.succ_le_of_lt hrow)
      rw [Nat.mul_succ, Nat.mul_comm d n] at this; omega
    refine Res.Sat.bind (scalarRowMap_sat row rm hrmlen) ?_
    rintro rm' ⟨r1, r2, r3⟩
    refine Res.Sat.bind (scalarCols_sat h hrow hd cols h2) ?_
    rintro ⟨ioh, cs⟩ ⟨g1, g2, g3⟩
    simp only at g1 g2 g3
    rw [hN] at r2 ⊢
    have hroom : d * d * (atN orm row + row) + d * ((atN orm (row + 1) - atN orm row + 1) * d) ≤
        cs.length := by
      rw [g1, h2, Nat.mul_comm _ (d * d)]
      have e : d * ((atN orm (row + 1) - atN orm row + 1) * d) =
        d * d * (atN orm (row + 1) - atN orm row + 1) := by ring
      rw [e, ← Nat.mul_add]
      exact Nat.mul_le_mul_left _ (by omega)
    refine Res.Sat.bind (scalarCopy_sat cs hroom hd) ?_
    rintro cs' ⟨k1, k2, k3⟩
    refine Res.Sat.ok ⟨⟨r1.trans h1, (k1.trans g1).trans h2, ?_⟩, ⟨r2, ?_⟩, ?_⟩
    · simp only
      by_cases c : row = 0
      · subst c
        have := r2 0 (Nat.zero_le _)
        simpa [h.zero] using this
      · have : 0 < d * row := Nat.mul_pos hd (by omega)
        rw [r3 0 (Or.inl this), h3]
    · intro j t x hj ht hx
      simp only
      have hlt : d * t + x < (atN orm (row + 1) - atN orm row + 1) * d := block_lt hx ht
      rw [k2 j (d * t + x) hj hlt, ← Nat.add_assoc, g2 t x ht hx]
    · rintro J hJ hne ⟨p1, p2⟩
      simp only at p1 p2 ⊢
      have hmJ := h.mono J hJ
      refine ⟨?_, ?_⟩
      · intro x hx
        by_cases c : d * J + x < d * row ∨ d * row + d < d * J + x
        · rw [r3 _ c, p1 x hx]
        · -- shared entry
          rcases Nat.lt_or_gt_of_ne hne with hlt | hgt
          · have e1 := Nat.mul_le_mul_left d (Nat.succ_le_of_lt hlt)
            rw [Nat.mul_succ] at e1
            have hx' : x = d := by omega
            have hJ' : row = J + 1 := by
              have : d * row = d * (J + 1) := by rw [Nat.mul_succ]; omega
              exact Nat.eq_of_mul_eq_mul_left hd this
            subst hJ'
            rw [hx', show d * J + d = d * (J + 1) + 0 by rw [Nat.mul_succ]; rfl,
              r2 0 (Nat.zero_le _)]
            rw [Nat.zero_mul, Nat.add_zero]
            have : d * ((atN orm (J + 1) - atN orm J + 1) * d) =
              d * d * (atN orm (J + 1) - atN orm J + 1) := by ring
            rw [this, ← Nat.mul_add]
            congr 1; omega
          · have e1 := Nat.mul_le_mul_left d (Nat.succ_le_of_lt hgt)
            rw [Nat.mul_succ] at e1
            have hx' : x = 0 := by omega
            have hJ' : J = row + 1 := by
              have : d * J = d * (row + 1) := by rw [Nat.mul_succ]; omega
              exact Nat.eq_of_mul_eq_mul_left hd this
            subst hJ'
            rw [hx', show d * (row + 1) + 0 = d * row + d by rw [Nat.mul_succ]; rfl,
              r2 d (Nat.le_refl _)]
            rw [Nat.zero_mul, Nat.add_zero]
            have : d * ((atN orm (row + 1) - atN orm row + 1) * d) =
              d * d * (atN orm (row + 1) - atN orm row + 1) := by ring
            rw [this, ← Nat.mul_add]
            congr 1; omega
      · intro j t x hj ht hx
        have hlt : d * t + x < (atN orm (J + 1) - atN orm J + 1) * d := block_lt hx ht
        have hlt2 : j * ((atN orm (J + 1) - atN orm J + 1) * d) + (d * t + x) <
            d * ((atN orm (J + 1) - atN orm J + 1) * d) := by
          rw [Nat.mul_comm j]; exact block_lt hlt hj
        have eJ : d * ((atN orm (J + 1) - atN orm J + 1) * d) =
          d * d * (atN orm (J + 1) - atN orm J + 1) := by ring
        have eR : d * ((atN orm (row + 1) - atN orm row + 1) * d) =
          d * d * (atN orm (row + 1) - atN orm row + 1) := by ring
        have hone : d * (atN orm (row + 1) - atN orm row + 1) ≤
            d * d * (atN orm (row + 1) - atN orm row + 1) :=
          Nat.mul_le_mul_right _ (Nat.le_mul_of_pos_left _ hd)
        rw [eR] at k3
        rw [eJ] at hlt2
        have hsep : d * d * (atN orm J + J) + (j * ((atN orm (J + 1) - atN orm J + 1) * d) +
            (d * t + x)) < d * d * (atN orm row + row) ∨
            d * d * (atN orm row + row) + d * d * (atN orm (row + 1) - atN orm row + 1) ≤
              d * d * (atN orm J + J) + (j * ((atN orm (J + 1) - atN orm J + 1) * d) +
              (d * t + x)) := by
          rcases Nat.lt_or_gt_of_ne hne with hlt' | hgt
          · left
            have a1 := h.le (J + 1) row (by omega) (by omega)
            have a2 : d * d * (atN orm J + J + (atN orm (J + 1) - atN orm J + 1)) ≤
              d * d * (atN orm row + row) := Nat.mul_le_mul_left _ (by omega)
            rw [Nat.mul_add] at a2
            omega
          · right
            have a1 := h.le (row + 1) J (by omega) (by omega)
            have a2 : d * d * (atN orm row + row + (atN orm (row + 1) - atN orm row + 1)) ≤
              d * d * (atN orm J + J) := Nat.mul_le_mul_left _ (by omega)
            rw [Nat.mul_add] at a2
            omega
        rw [Nat.add_assoc, k3 _ hsep, g3 _ (by omega), ← Nat.add_assoc]
        exact p2 j t x hj ht hx
  · rintro ⟨rm, cols⟩ ⟨⟨h1, h2, h3⟩, h4⟩
    exact Res.Sat.ok ⟨h1, h2, rfl, rfl, rfl, rfl, rfl, h3, fun I x hI hx => (h4 I hI).1 x hx,
      fun I j t x hI hj ht hx => (h4 I hI).2 j t x hj ht hx⟩

/-- C05 for scalar matrices: `CreateMatrix` returns exactly the scalar expansion of the block
matrix returned by `CreateBlockMatrix` for the same adjacency: each scalar row `d*I+x` holds the
`d` scalar columns of node `I` and of each of its neighbours, each once, and nothing else. -/
theorem C05_createMatrix [AddCommMonoid K] {orm oab : List Nat} {n : Nat} (h : Adjacency orm oab n)
    {d : Nat} (hd : 0 < d) {o : List Nat} (ho : IsSchedule o n) :
    (createMatrix (K := K) d o orm oab).Sat fun A =>
      A.rpb = 1 ∧ A.cpb = 1 ∧ A.vals.length = A.cols.length ∧
      RowMapOk A.rowMap (n * d) A.cols.length ∧ atN A.rowMap 0 = 0 ∧
      atN A.rowMap (n * d) = A.cols.length ∧ (∀ e, at0 A.vals e = 0) ∧
      (∀ I x, I < n → x < d →
        (A.rowCols (d * I + x)).Perm ((I :: nbrs orm oab I).flatMap (expandCol d)) ∧
        ((nbrs orm oab I).Pairwise (· < ·) → I ∉ nbrs orm oab I →
          (A.rowCols (d * I + x)).Pairwise (· < ·))) ∧
      (∀ k, k < A.cols.length → atN A.cols k < n * d) := by
  refine (createMatrix_sat h hd ho).mono ?_
  rintro A ⟨a1, a2, a3, -, -, a6, a7, a0, a8, a9⟩
  have hrm : ∀ I x, I < n → x < d → atN A.rowMap (d * I + x + 1) = atN A.rowMap (d * I + x) +
      (atN orm (I + 1) - atN orm I + 1) * d := by
    intro I x hI hx
    rw [a8 I x hI (by omega), Nat.add_assoc (d * I), a8 I (x + 1) hI (by omega), Nat.succ_mul]
    omega
  have hlast : atN A.rowMap (n * d) = A.cols.length := by
    rw [a2]
    by_cases c : n = 0
    · subst c
      have : oab.length = 0 := by rw [← h.last, h.zero]
      simp [this, a0]
    · have hm := h.mono (n - 1) (by omega)
      have e := a8 (n - 1) d (by omega) (Nat.le_refl _)
      have e1 : n - 1 + 1 = n := by omega
      rw [e1] at e hm
      have e2 : d * (n - 1) + d = n * d := by rw [← Nat.mul_succ, Nat.succ_eq_add_one, e1, Nat.mul_comm]
      rw [e2] at e
      rw [e, h.last]
      rw [h.last] at hm
      have : d * ((oab.length - atN orm (n - 1) + 1) * d) =
        d * d * (oab.length - atN orm (n - 1) + 1) := by ring
      rw [this, ← Nat.mul_add, Nat.mul_comm]
      congr 1; omega
  have hdm : ∀ i, i < n * d → i / d < n ∧ i % d < d ∧ d * (i / d) + i % d = i := fun i hi =>
    ⟨div_lt_of_lt hi, Nat.mod_lt _ hd, Nat.div_add_mod i d⟩
  have hmono : ∀ i, i < n * d → atN A.rowMap i ≤ atN A.rowMap (i + 1) := by
    intro i hi
    obtain ⟨p1, p2, p3⟩ := hdm i hi
    have := hrm _ _ p1 p2
    rw [p3] at this; omega
  have hrow : ∀ I x, I < n → x < d → A.rowCols (d * I + x) =
      ((List.range (atN orm (I + 1) - atN orm I + 1)).map (spliceAt orm oab I)).flatMap
        (expandCol d) := by
    intro I x hI hx
    unfold Crs.rowCols
    rw [hrm I x hI hx, Nat.add_sub_cancel_left]
    apply List.ext_getElem?
    intro e
    by_cases he : e < (atN orm (I + 1) - atN orm I + 1) * d
    · have hq : e / d < atN orm (I + 1) - atN orm I + 1 := div_lt_of_lt he
      have hoff : e % d < d := Nat.mod_lt _ hd
      have hee : e / d * d + e % d = e := by rw [Nat.mul_comm]; exact Nat.div_add_mod e d
      have e1 := flatMap_expand_get d
        ((List.range (atN orm (I + 1) - atN orm I + 1)).map (spliceAt orm oab I))
        (e / d) (e % d) (by simpa using hq) hoff
      rw [hee] at e1
      rw [e1, List.getElem?_map, List.getElem?_range' he]
      simp only [Option.map_some, Option.some.injEq, Nat.one_mul, List.getElem_map,
        List.getElem_range]
      have := a9 I x (e / d) (e % d) hI hx hq hoff
      rw [Nat.mul_comm d (e / d), hee, ← a8 I x hI (by omega)] at this
      rw [this, Nat.mul_comm]
    · rw [List.getElem?_eq_none (by simp; omega),
        List.getElem?_eq_none (by simp [expandCol, Function.comp_def]; omega)]
  refine ⟨a6, a7, by rw [a3, a2]; simp, ⟨a1, hmono, Nat.le_of_eq hlast⟩, a0, hlast, ?_, ?_, ?_⟩
  · intro e
    rw [a3]
    unfold at0
    by_cases he : e < (oab.length + n) * (d * d)
    · simp [he]
    · simp [he]
  · intro I x hI hx
    rw [hrow I x hI hx]
    refine ⟨(splice_perm orm oab I).flatMap_right _, ?_⟩
    intro hs hself
    have := splice_sorted orm oab I hs hself
    rw [List.pairwise_flatMap]
    refine ⟨?_, ?_⟩
    · intro a _
      unfold expandCol
      rw [List.pairwise_map]
      exact List.Pairwise.imp (fun h => by omega) List.pairwise_lt_range
    · refine this.imp ?_
      intro a b hab x hx y hy
      simp only [expandCol, List.mem_map, List.mem_range] at hx hy
      obtain ⟨r, hr, rfl⟩ := hx
      obtain ⟨s, hs, rfl⟩ := hy
      have : (a + 1) * d ≤ b * d := Nat.mul_le_mul_right _ hab
      rw [Nat.succ_mul] at this; omega
  · intro k hk
    obtain ⟨i, hi, hik, hki⟩ := locate (atN A.rowMap) (n * d) k (by rw [a0]; exact Nat.zero_le _)
      (by rw [hlast]; exact hk)
    obtain ⟨p1, p2, p3⟩ := hdm i hi
    have hmem : atN A.cols k ∈ A.rowCols i := by
      unfold Crs.rowCols
      rw [List.mem_map]
      exact ⟨k, by rw [List.mem_range'_1]; omega, rfl⟩
    have hp := (splice_perm orm oab (i / d)).flatMap_right (expandCol d)
    rw [← hrow _ _ p1 p2, p3] at hp
    have hm2 := hp.mem_iff.1 hmem
    rw [List.mem_flatMap] at hm2
    obtain ⟨b, hb, hb2⟩ := hm2
    have hbn : b < n := by
      rcases List.mem_cons.1 hb with rfl | hb
      · exact p1
      · unfold nbrs at hb
        rw [List.mem_map] at hb
        obtain ⟨q, hq, rfl⟩ := hb
        rw [List.mem_range'_1] at hq
        have hle := h.le (i / d + 1) n (by omega) (Nat.le_refl _)
        rw [h.last] at hle
        have := h.mono _ p1
        exact h.lt q (by omega)
    simp only [expandCol, List.mem_map, List.mem_range] at hb2
    obtain ⟨r, hr, hre⟩ := hb2
    rw [← hre, Nat.mul_comm b]; exact block_lt hr hbn

/-- `CreateMatrix` leaves the matrix sizes unset: asking for them throws. -/
theorem C05_createMatrix_sizes_unset [Zero K] {orm oab : List Nat} {n : Nat}
    (h : Adjacency orm oab n) {d : Nat} (hd : 0 < d) {o : List Nat} (ho : IsSchedule o n) :
    (createMatrix (K := K) d o orm oab).Sat fun A => ∃ m, A.numRows = Res.err m := by
  refine (createMatrix_sat h hd ho).mono ?_
  rintro A ⟨-, -, -, a4, -⟩
  exact ⟨"requested unset value", by unfold Crs.numRows; rw [a4]; rfl⟩

end Plato
