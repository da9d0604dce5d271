import Mathlib.Data.List.Sort
import Verif.Crs.Convert

/-!
# Lemmas about `setDataFromNonBlock`
-/

namespace Plato
open Finset
variable {K : Type}

theorem blockRowMap_kernel_sat {nb rpb cpb : Nat} {RM rm : List Nat} (hr : 0 < rpb) (hc : 0 < cpb)
    (hRM : RM.length = nb + 1) (hrl : rm.length = nb * rpb + 1)
    (hrm : ∀ i, i ≤ nb * rpb → atN rm i = nbPosL RM cpb rpb i)
    {o1 : List Nat} (ho : IsSchedule o1 (nb * rpb + 1)) :
    (parFor o1 (List.replicate (nb + 1) 0) (blockRowMapStep rpb (rpb * cpb) rm)).Sat (· = RM) := by
  have hbs : 0 < rpb * cpb := Nat.mul_pos hr hc
  refine (parFor_posts ho (fun out => out.length = nb + 1)
    (fun i out => i % rpb = 0 → atN out (i / rpb) = atN RM (i / rpb)) List.length_replicate ?_).mono ?_
  · intro i out hi hl
    have hI : i / rpb ≤ nb := by
      rw [Nat.div_le_iff_le_mul_add_pred hr, Nat.mul_comm]; omega
    unfold blockRowMapStep
    by_cases hm : i % rpb = 0
    · rw [if_pos hm, rd_at0 (by omega)]
      simp only [Res.ok_bind]
      rw [wr_eq (by omega)]
      refine Res.Sat.ok ⟨by simpa using hl, ?_, ?_⟩
      · intro _
        rw [atN, at0_set (by omega), if_pos rfl]
        have : at0 rm i = nbPosL RM cpb rpb i := hrm i (by omega)
        rw [this]
        unfold nbPosL
        rw [hm]; simp [Nat.mul_div_cancel _ hbs]
      · intro j hj hne hp hjm
        rw [atN, at0_set (by omega), if_neg]
        · exact hp hjm
        · intro heq
          apply hne
          have e1 := Nat.div_add_mod i rpb
          have e2 := Nat.div_add_mod j rpb
          rw [hm] at e1; rw [hjm, heq] at e2; omega
    · rw [if_neg hm]
      exact Res.Sat.ok ⟨hl, fun h => absurd h hm, fun _ _ _ h => h⟩
  · rintro out ⟨hl, hp⟩
    apply ext_at0 (hl.trans hRM.symm)
    intro I hI
    have := hp (I * rpb) (by
      have : I * rpb ≤ nb * rpb := Nat.mul_le_mul_right _ (by omega)
      omega) (Nat.mul_mod_left _ _)
    rwa [Nat.mul_div_cancel _ hr] at this

/-- One row of the column/value kernel of `setDataFromNonBlock`. -/
theorem blockEntryStep_sat [Zero K] {nb rpb cpb : Nat} {RM rm c : List Nat} {v : List K}
    (hr : 0 < rpb) (hc : 0 < cpb)
    (hRM : RM.length = nb + 1) (hmono : ∀ i, i < nb → atN RM i ≤ atN RM (i + 1))
    (hrl : rm.length = nb * rpb + 1)
    (hrm : ∀ i, i ≤ nb * rpb → atN rm i = nbPosL RM cpb rpb i)
    (hcl : c.length = atN RM nb * (rpb * cpb)) (hvl : v.length = atN RM nb * (rpb * cpb))
    (st : List Nat × List K) (hs1 : st.1.length = atN RM nb)
    (hs2 : st.2.length = atN RM nb * (rpb * cpb)) {i : Nat} (hi : i < nb * rpb) :
    (blockEntryStep rpb cpb rm c v RM i st).Sat fun st' =>
      st'.1.length = st.1.length ∧ st'.2.length = st.2.length ∧
      (i % rpb = 0 → ∀ q, q < rowLenL RM (i / rpb) →
        atN st'.1 (atN RM (i / rpb) + q) = atN c (nbPosL RM cpb rpb i + q * cpb) / cpb) ∧
      (∀ q off, q < rowLenL RM (i / rpb) → off < cpb →
        at0 st'.2 (rpb * cpb * (atN RM (i / rpb) + q) + cpb * (i % rpb) + off) =
          at0 v (nbPosL RM cpb rpb i + (q * cpb + off))) ∧
      (∀ p, (¬ (i % rpb = 0 ∧ atN RM (i / rpb) ≤ p ∧ p < atN RM (i / rpb + 1))) →
        atN st'.1 p = atN st.1 p) ∧
      (∀ k li off, li < rpb → off < cpb →
        (¬ (li = i % rpb ∧ atN RM (i / rpb) ≤ k ∧ k < atN RM (i / rpb + 1))) →
        at0 st'.2 (rpb * cpb * k + cpb * li + off) = at0 st.2 (rpb * cpb * k + cpb * li + off)) := by
  have hI := div_lt_of_lt hi
  have hli : i % rpb < rpb := Nat.mod_lt _ hr
  have hsucc := rowMapL_succ hmono hI
  have hend : nbPosL RM cpb rpb (i + 1) ≤ atN RM nb * (rpb * cpb) := by
    rw [← nbPosL_end hr]; exact nbPosL_mono hmono hr _ _ (by omega) (Nat.le_refl _)
  rw [nbPosL_succ hmono hr hi] at hend
  have hlast : atN RM (i / rpb + 1) ≤ atN RM nb := by
    have : ∀ j, i / rpb + 1 ≤ j → j ≤ nb → atN RM (i / rpb + 1) ≤ atN RM j := by
      intro j h1 h2
      induction j with
      | zero => exact absurd h1 (Nat.not_succ_le_zero _)
      | succ j ih =>
        by_cases hc : i / rpb + 1 = j + 1
        · rw [hc]
        · exact Nat.le_trans (ih (by omega) (by omega)) (hmono j (by omega))
    exact this nb (by omega) (Nat.le_refl _)
  -- uniqueness of the storage position
  have huniq : ∀ k li off k' li' off', li < rpb → off < cpb → li' < rpb → off' < cpb →
      rpb * cpb * k + cpb * li + off = rpb * cpb * k' + cpb * li' + off' →
      k = k' ∧ li = li' ∧ off = off' := by
    intro k li off k' li' off' h1 h2 h3 h4 heq
    have b1 : cpb * li + off < rpb * cpb := block_lt h2 h1
    have b2 : cpb * li' + off' < rpb * cpb := block_lt h4 h3
    rw [Nat.add_assoc, Nat.add_assoc] at heq
    have hk : k = k' := by
      rw [← div_block (q := k) b1, heq, div_block b2]
    have hrest : cpb * li + off = cpb * li' + off' := by
      rw [hk] at heq; omega
    have hl : li = li' := by
      rw [← div_block (q := li) h2, hrest, div_block h4]
    refine ⟨hk, hl, ?_⟩
    rw [hl] at hrest; omega
  unfold blockEntryStep
  rw [rd_atN (by omega), rd_atN (by omega)]
  simp only [Res.ok_bind]
  rw [rd_atN (by omega)]
  simp only [Res.ok_bind]
  have hrmi : atN rm i = nbPosL RM cpb rpb i := hrm i (by omega)
  rw [hrmi]
  set P := nbPosL RM cpb rpb i with hP
  set L := atN RM (i / rpb) with hL
  -- contents after `t` scalar entries and `m` blocks columns
  set Good : Nat → Nat → List Nat × List K → Prop := fun m t s =>
    s.1.length = st.1.length ∧ s.2.length = st.2.length ∧
    (i % rpb = 0 → ∀ q, q < m → atN s.1 (L + q) = atN c (P + q * cpb) / cpb) ∧
    (∀ q off, q * cpb + off < t → off < cpb →
      at0 s.2 (rpb * cpb * (L + q) + cpb * (i % rpb) + off) = at0 v (P + (q * cpb + off))) ∧
    (∀ p, (¬ (i % rpb = 0 ∧ L ≤ p ∧ p < L + m)) → atN s.1 p = atN st.1 p) ∧
    (∀ k li off, li < rpb → off < cpb → (¬ (li = i % rpb ∧ L ≤ k ∧ (k - L) * cpb + off < t)) →
      at0 s.2 (rpb * cpb * k + cpb * li + off) = at0 st.2 (rpb * cpb * k + cpb * li + off))
    with hGood
  refine Res.Sat.bind (P := fun s => s.1 = P + (rowLenL RM (i / rpb)) * cpb ∧
    Good (rowLenL RM (i / rpb)) (rowLenL RM (i / rpb) * cpb) s.2) ?_ ?_
  · refine (forRange_inv (fun k s => s.1 = P + (k - L) * cpb ∧ Good (k - L) ((k - L) * cpb) s.2)
      (show L ≤ atN RM (i / rpb + 1) by omega) ?_ ?_).mono ?_
    · refine ⟨by simp, rfl, rfl, ?_, ?_, fun _ _ => rfl, fun _ _ _ _ _ _ => rfl⟩
      · intro _ q hq; simp at hq
      · intro q off hlt; simp at hlt
    · rintro k ⟨p1, c1, v1⟩ hk1 hk2 ⟨hp1, hl1, hl2, hcol, hent, hco, hvo⟩
      obtain ⟨q, rfl⟩ := Nat.exists_eq_add_of_le hk1
      have hk2' : L + q < atN RM (i / rpb + 1) := hk2
      have hq : q < rowLenL RM (i / rpb) := by omega
      simp only [Nat.add_sub_cancel_left] at hp1 hl1 hl2 hcol hent hco hvo
      subst hp1
      have hqs : L + q + 1 - L = q + 1 := by omega
      rw [hqs]
      -- the column write
      have hcw : (blockColWrite rpb cpb c i (L + q) (P + q * cpb) c1).Sat fun c2 =>
          c2.length = st.1.length ∧
          (i % rpb = 0 → ∀ q', q' < q + 1 → atN c2 (L + q') = atN c (P + q' * cpb) / cpb) ∧
          (∀ p, (¬ (i % rpb = 0 ∧ L ≤ p ∧ p < L + (q + 1))) → atN c2 p = atN st.1 p) := by
        unfold blockColWrite
        by_cases hm : i % rpb = 0
        · rw [if_pos hm]
          have hlt : P + q * cpb < c.length := by
            have : q * cpb + cpb ≤ rowLenL RM (i / rpb) * cpb := by
              have := Nat.mul_le_mul_right cpb hq
              rwa [Nat.succ_mul] at this
            omega
          rw [rd_at0 hlt]
          simp only [Res.ok_bind]
          have hlt2 : L + q < c1.length := by omega
          rw [wr_eq hlt2]
          refine Res.Sat.ok ⟨by simpa using hl1, ?_, ?_⟩
          · intro _ q' hq'
            rw [atN, at0_set hlt2]
            by_cases hqq : q' = q
            · subst hqq; simp
            · rw [if_neg (by omega)]; exact hcol hm q' (by omega)
          · intro p hp
            rw [atN, at0_set hlt2, if_neg (by omega)]
            exact hco p (by omega)
        · rw [if_neg hm]
          refine Res.Sat.ok ⟨hl1, fun h => absurd h hm, ?_⟩
          intro p hp
          exact hco p (fun h => hm h.1)
      refine Res.Sat.bind hcw ?_
      rintro c2 ⟨hc2l, hc2, hc2o⟩
      refine (forRange_inv (fun off s => s.1 = P + (q * cpb + off) ∧
        Good (q + 1) (q * cpb + off) s.2) (Nat.zero_le _) ?_ ?_).mono ?_
      · refine ⟨rfl, hc2l, hl2, hc2, by simpa using hent, hc2o, ?_⟩
        intro k' li off h1 h2 h3
        exact hvo k' li off h1 h2 (by simpa using h3)
      · rintro off ⟨p2, c3, v3⟩ - hoff ⟨hp2, g1, g2, g3, g4, g5, g6⟩
        simp only at hp2 g1 g2 g3 g4 g5 g6
        subst hp2
        have hb : (q * cpb + off) < rowLenL RM (i / rpb) * cpb := by
          rw [Nat.mul_comm q]; exact block_lt hoff hq
        simp only
        rw [rd_at0 (by omega)]
        simp only [Res.ok_bind]
        have hpos : (L + q) * (rpb * cpb) + i % rpb * cpb + off =
            rpb * cpb * (L + q) + cpb * (i % rpb) + off := by ring
        rw [hpos]
        have hwl : rpb * cpb * (L + q) + cpb * (i % rpb) + off < v3.length := by
          rw [g2, hs2]
          have b1 : cpb * (i % rpb) + off < rpb * cpb := block_lt hoff hli
          have b2 : L + q < atN RM nb := by omega
          have := block_lt b1 b2
          rwa [← Nat.add_assoc] at this
        rw [wr_eq hwl]
        refine Res.Sat.ok ⟨by simp only; omega, g1, by simpa using g2, g3, ?_, g5, ?_⟩
        · intro q' off' hlt hoff'
          simp only
          rw [at0_set hwl]
          by_cases hqq : q' = q ∧ off' = off
          · obtain ⟨rfl, rfl⟩ := hqq
            rw [if_pos rfl]
          · have hne : ¬ (rpb * cpb * (L + q') + cpb * (i % rpb) + off' =
                rpb * cpb * (L + q) + cpb * (i % rpb) + off) := by
              intro heq
              obtain ⟨a, -, b⟩ := huniq _ _ _ _ _ _ hli hoff' hli hoff heq
              exact hqq ⟨by omega, b⟩
            rw [if_neg hne]
            refine g4 q' off' ?_ hoff'
            have : q' * cpb + off' ≠ q * cpb + off := by
              intro heq
              have e1 := div_block (q := q') hoff'
              have e2 := div_block (q := q) hoff
              rw [Nat.mul_comm] at e1 e2
              rw [heq, e2] at e1
              apply hqq
              refine ⟨e1.symm, ?_⟩
              rw [← e1] at heq; omega
            omega
        · intro k' li off' h1 h2 h3
          simp only
          rw [at0_set hwl, if_neg, g6 k' li off' h1 h2]
          · rintro ⟨a, b, d⟩; exact h3 ⟨a, b, by omega⟩
          · intro heq
            obtain ⟨a, b, d⟩ := huniq _ _ _ _ _ _ h1 h2 hli hoff heq
            apply h3
            refine ⟨b, by omega, ?_⟩
            rw [a, d, Nat.add_sub_cancel_left]; omega
      · rintro s ⟨a, b⟩
        have : q * cpb + cpb = (q + 1) * cpb := by ring
        rw [this] at a b
        exact ⟨a, b⟩
    · rintro s ⟨a, b⟩
      have : atN RM (i / rpb + 1) - L = rowLenL RM (i / rpb) := rfl
      rw [this] at a b
      exact ⟨a, b⟩
  · rintro ⟨p, s⟩ ⟨-, g1, g2, g3, g4, g5, g6⟩
    simp only at g1 g2 g3 g4 g5 g6
    refine Res.Sat.ok ⟨g1, g2, g3, ?_, ?_, ?_⟩
    · intro q off hq hoff
      refine g4 q off ?_ hoff
      rw [Nat.mul_comm q]; exact block_lt hoff hq
    · intro p hp
      exact g5 p (by rw [← hsucc]; exact hp)
    · intro k li off h1 h2 h3
      refine g6 k li off h1 h2 ?_
      rintro ⟨a, b, d⟩
      apply h3
      refine ⟨a, b, ?_⟩
      have hlt : (k - L) * cpb < rowLenL RM (i / rpb) * cpb := by omega
      have := Nat.lt_of_mul_lt_mul_right hlt
      omega

/-- The two kernels of `setDataFromNonBlock`, on sorted data with block row map `RM`. -/
theorem blockKernels_sat [Zero K] {nb rpb cpb : Nat} {RM rm c : List Nat} {v : List K}
    (hr : 0 < rpb) (hc : 0 < cpb)
    (hRM : RM.length = nb + 1) (hmono : ∀ i, i < nb → atN RM i ≤ atN RM (i + 1))
    (hrl : rm.length = nb * rpb + 1)
    (hrm : ∀ i, i ≤ nb * rpb → atN rm i = nbPosL RM cpb rpb i)
    (hcl : c.length = atN RM nb * (rpb * cpb)) (hvl : v.length = atN RM nb * (rpb * cpb))
    {o2 : List Nat} (ho : IsSchedule o2 (nb * rpb)) :
    (parFor o2 (List.replicate (v.length / (rpb * cpb)) 0, List.replicate v.length (0 : K))
      (blockEntryStep rpb cpb rm c v RM)).Sat fun st =>
      st.1.length = atN RM nb ∧ st.2.length = atN RM nb * (rpb * cpb) ∧
      ∀ i, i < nb * rpb →
        (i % rpb = 0 → ∀ q, q < rowLenL RM (i / rpb) →
          atN st.1 (atN RM (i / rpb) + q) = atN c (nbPosL RM cpb rpb i + q * cpb) / cpb) ∧
        (∀ q off, q < rowLenL RM (i / rpb) → off < cpb →
          at0 st.2 (rpb * cpb * (atN RM (i / rpb) + q) + cpb * (i % rpb) + off) =
            at0 v (nbPosL RM cpb rpb i + (q * cpb + off))) := by
  have hbs : 0 < rpb * cpb := Nat.mul_pos hr hc
  have hlens : (List.replicate (v.length / (rpb * cpb)) 0 : List Nat).length = atN RM nb := by
    rw [List.length_replicate, hvl, Nat.mul_div_cancel _ hbs]
  have hlev : (List.replicate v.length (0 : K)).length = atN RM nb * (rpb * cpb) := by
    rw [List.length_replicate, hvl]
  refine (parFor_posts ho (fun st => st.1.length = atN RM nb ∧ st.2.length = atN RM nb * (rpb * cpb))
    (fun i st => (i % rpb = 0 → ∀ q, q < rowLenL RM (i / rpb) →
          atN st.1 (atN RM (i / rpb) + q) = atN c (nbPosL RM cpb rpb i + q * cpb) / cpb) ∧
        (∀ q off, q < rowLenL RM (i / rpb) → off < cpb →
          at0 st.2 (rpb * cpb * (atN RM (i / rpb) + q) + cpb * (i % rpb) + off) =
            at0 v (nbPosL RM cpb rpb i + (q * cpb + off)))) ⟨hlens, hlev⟩ ?_).mono ?_
  · rintro i st hi ⟨h1, h2⟩
    refine (blockEntryStep_sat hr hc hRM hmono hrl hrm hcl hvl st h1 h2 hi).mono ?_
    rintro st' ⟨k1, k2, k3, k4, k5, k6⟩
    refine ⟨⟨k1.trans h1, k2.trans h2⟩, ⟨k3, k4⟩, ?_⟩
    rintro j hj hne ⟨p1, p2⟩
    have hJ := div_lt_of_lt hj
    have hI := div_lt_of_lt hi
    have hle : ∀ a b, a ≤ b → b ≤ nb → atN RM a ≤ atN RM b := by
      intro a b hab hb
      induction b with
      | zero => have : a = 0 := by omega
                rw [this]
      | succ b ih =>
        by_cases hc : a = b + 1
        · rw [hc]
        · exact Nat.le_trans (ih (by omega) (by omega)) (hmono b (by omega))
    have hsJ := rowMapL_succ hmono hJ
    have key : ∀ q, q < rowLenL RM (j / rpb) → j % rpb = i % rpb →
        ¬ (atN RM (i / rpb) ≤ atN RM (j / rpb) + q ∧ atN RM (j / rpb) + q < atN RM (i / rpb + 1)) := by
      rintro q hq hmod ⟨a, b⟩
      have hd : j / rpb ≠ i / rpb := by
        intro hd
        apply hne
        have e1 := Nat.div_add_mod i rpb
        have e2 := Nat.div_add_mod j rpb
        rw [hd, hmod] at e2; omega
      rcases Nat.lt_or_gt_of_ne hd with hlt | hgt
      · have := hle (j / rpb + 1) (i / rpb) hlt (by omega); omega
      · have := hle (i / rpb + 1) (j / rpb) hgt (by omega); omega
    refine ⟨?_, ?_⟩
    · intro hm q hq
      rw [k5 _ ?_]
      · exact p1 hm q hq
      · rintro ⟨a, b⟩
        exact key q hq (by omega) b
    · intro q off hq hoff
      rw [k6 _ _ _ (Nat.mod_lt _ hr) hoff ?_]
      · exact p2 q off hq hoff
      · rintro ⟨a, b⟩
        exact key q hq a b
  · rintro st ⟨⟨h1, h2⟩, h3⟩
    exact ⟨h1, h2, h3⟩

/-- Sorted column data in which every scalar row is made of full blocks, the same for all local
rows of a node row. -/
def HasBlocks (nb rpb cpb : Nat) (RM c : List Nat) (C : Nat → Nat → Nat) : Prop :=
  ∀ i q off, i < nb * rpb → q < rowLenL RM (i / rpb) → off < cpb →
    atN c (nbPosL RM cpb rpb i + (q * cpb + off)) = C (i / rpb) q * cpb + off

/-- `setDataFromNonBlock` after the sort: the result stores exactly the given scalar data. -/
theorem setKernels_isNonBlock [Zero K] {nb mb rpb cpb : Nat} {RM rm c : List Nat} {v : List K}
    (hr : 0 < rpb) (hc : 0 < cpb)
    (hRM : RM.length = nb + 1) (hz : atN RM 0 = 0) (hmono : ∀ i, i < nb → atN RM i ≤ atN RM (i + 1))
    (hrl : rm.length = nb * rpb + 1)
    (hrm : ∀ i, i ≤ nb * rpb → atN rm i = nbPosL RM cpb rpb i)
    (hcl : c.length = atN RM nb * (rpb * cpb)) (hvl : v.length = atN RM nb * (rpb * cpb))
    {C : Nat → Nat → Nat} (hC : HasBlocks nb rpb cpb RM c C)
    (hCb : ∀ I q, I < nb → q < rowLenL RM I → C I q < mb)
    (M : Crs K) (hMr : M.rpb = rpb) (hMc : M.cpb = cpb) (hMn : M.numRows? = some (nb * rpb))
    (hMm : M.numCols? = some (mb * cpb))
    {o1 o2 : List Nat} (ho1 : IsSchedule o1 (nb * rpb + 1)) (ho2 : IsSchedule o2 (nb * rpb)) :
    (do
      let rowMap ← parFor o1 (List.replicate (nb * rpb / rpb + 1) 0)
        (blockRowMapStep rpb (rpb * cpb) rm)
      let res ← parFor o2 (List.replicate (v.length / (rpb * cpb)) 0, List.replicate v.length (0 : K))
        (blockEntryStep rpb cpb rm c v rowMap)
      pure { M with rowMap := rowMap, cols := res.1, vals := res.2 }).Sat fun B =>
      B.WF nb mb ∧ B.rpb = rpb ∧ B.cpb = cpb ∧ B.rowMap = RM ∧ IsNonBlock B nb 1 0 rpb rm c v ∧
      ∀ I q, I < nb → q < rowLenL RM I → atN B.cols (atN RM I + q) = C I q := by
  rw [Nat.mul_div_cancel _ hr]
  refine Res.Sat.bind (blockRowMap_kernel_sat hr hc hRM hrl hrm ho1) ?_
  rintro RM' hRM'
  rw [hRM']
  refine Res.Sat.bind (blockKernels_sat hr hc hRM hmono hrl hrm hcl hvl ho2) ?_
  rintro st ⟨h1, h2, h3⟩
  have hcols : ∀ I q, I < nb → q < rowLenL RM I → atN st.1 (atN RM I + q) = C I q := by
    intro I q hI hq
    have hlt : I * rpb < nb * rpb := by
      have := block_lt (c := rpb) (q := I) (r := 0) hr hI
      rw [Nat.mul_comm]; omega
    have hd : I * rpb / rpb = I := Nat.mul_div_cancel _ hr
    have e := (h3 (I * rpb) hlt).1 (Nat.mul_mod_left _ _) q (by rw [hd]; exact hq)
    rw [hd] at e
    rw [e]
    have := hC (I * rpb) q 0 hlt (by rw [hd]; exact hq) hc
    rw [Nat.add_zero, hd] at this
    rw [this, Nat.add_zero, Nat.mul_div_cancel _ hc]
  refine Res.Sat.ok ⟨⟨?_, ?_, hRM, hz, hmono, h1.symm, ?_, ?_, ?_, ?_⟩, hMr, hMc, rfl, ?_, hcols⟩
  · simpa [hMr] using hr
  · simpa [hMc] using hc
  · intro k hk
    simp only at hk ⊢
    -- locate the row of block k
    have hloc : ∃ I, I < nb ∧ atN RM I ≤ k ∧ k < atN RM (I + 1) := by
      have hk' : k < atN RM nb := by omega
      have : ∀ m, m ≤ nb → k < atN RM m → ∃ I, I < m ∧ atN RM I ≤ k ∧ k < atN RM (I + 1) := by
        intro m hm hkm
        induction m with
        | zero => omega
        | succ m ih =>
          by_cases hlt : k < atN RM m
          · obtain ⟨I, a, b⟩ := ih (by omega) hlt
            exact ⟨I, by omega, b⟩
          · exact ⟨m, by omega, by omega, hkm⟩
      exact this nb (Nat.le_refl _) hk'
    obtain ⟨I, hI, ha, hb⟩ := hloc
    have hs := rowMapL_succ hmono hI
    have e := hcols I (k - atN RM I) hI (by omega)
    rw [Nat.add_sub_cancel' ha] at e
    rw [e]
    exact hCb I _ hI (by omega)
  · simp only [hMr, hMc]
    rw [h2, h1]; ring
  · simp only [hMr, hMn]
  · simp only [hMc, hMm]
  · refine ⟨hrl, ?_, ?_, ?_, ?_⟩
    · intro i hi
      simp only [nbPos, hMc]
      exact hrm i hi
    · simp only [hMc]; rw [h1]; exact hcl
    · simp only [hMc]; rw [h1]; exact hvl
    · intro i q off hi hq hoff
      simp only [nbPos, rowLen, hMc] at hq hoff ⊢
      have hI := div_lt_of_lt hi
      rw [hcols _ _ hI hq]
      refine ⟨hC i q off hi hq hoff, ?_⟩
      unfold nbVal
      rw [if_pos rfl]
      simp only [hMr]
      have := (h3 i hi).2 q off hq hoff
      rw [← this]
      congr 1; ring

end Plato
