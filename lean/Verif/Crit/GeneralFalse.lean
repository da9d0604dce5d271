import Verif.Crit.GeneralProps
import Verif.Crit.NormProps

/-!
# C103: construction of the general criterion, mass of the full design, and what blocks do to it
-/

namespace Plato.Crit
open Finset Plato Plato.Mech

/-- The objects of the domains are those the constructor makes. -/
def Built (M : FeModel) (I : GeneralInputs) (weight : ℝ) (basis x : List ℝ) (G : Nat → General) : Prop :=
  ∀ k, k < M.domains.length → ∃ cfg order chunks, IsSchedule cfg (M.size (M.part k)) ∧
    IsSchedule order (M.size (M.part k)) ∧ IsPartition chunks (M.size (M.part k)) ∧
    General.new M I weight basis (M.size (M.part k)) x cfg order chunks = .ok (G k)

section
variable {M : FeModel} (hM : M.Ok) (hdim : M.dim = 1 ∨ M.dim = 2 ∨ M.dim = 3) {basis : List ℝ}
  (hb : basis.length = M.npc) (hsum : ∑ i ∈ range M.npc, at0 basis i = 1)
include hM hdim hb hsum

/-- **C103**: the constructor, any schedules.  The members are the inputs except the normalisation, which is
the mass of the first cells of the mesh at density one. -/
theorem C103_new (I : GeneralInputs) (weight : ℝ) {n : Nat} (hn : n ≤ M.nc) {x : List ℝ} (hx : x.length = M.nn * M.dim)
    {cfg order : List Nat} {chunks : List (List Nat)} (h1 : IsSchedule cfg n) (h2 : IsSchedule order n)
    (h3 : IsPartition chunks n) :
    General.new M I weight basis n x cfg order chunks =
      .ok { I.members M.nc with norm := ∑ c ∈ range n, I.density * (meshVolume M x c * weight) } := by
  unfold General.new
  dsimp only
  rw [C55_structuralMass hM hdim hb hsum hn hx h1 h2 h3, Res.ok_bind]
  rfl

theorem built_norm {I : GeneralInputs} {weight : ℝ} {x : List ℝ} (hx : x.length = M.nn * M.dim) {G : Nat → General}
    (hG : Built M I weight basis x G) {k : Nat} (hk : k < M.domains.length) (hn : M.size (M.part k) ≤ M.nc) :
    G k = { I.members M.nc with norm := ∑ c ∈ range (M.size (M.part k)), I.density * (meshVolume M x c * weight) } := by
  obtain ⟨cfg, order, chunks, h1, h2, h3, e⟩ := hG k hk
  rw [C103_new hM hdim hb hsum I weight hn hx h1 h2 h3] at e
  exact (Res.ok.inj e).symm

end

section Full
variable {M : FeModel} (hM : M.Ok) {P : Nat → Elastostatic ℝ} (h : MechOk M P) {basis : List ℝ}
  (hb : basis.length = M.npc) (hsum : ∑ i ∈ range M.npc, at0 basis i = 1)
include hM h hb hsum

/-- **C103, partial**: with one block that has all cells in their order, the criterion of a full design with
stress within the limit is the weight of the mass, for every mesh with volume.  Missing: other blocks, see
`C103_blocks_false`. -/
theorem C103_full_partial {I : GeneralInputs} {weight : ℝ} {x u : List ℝ} (hx : x.length = M.nn * M.dim)
    (hu : u.length = M.nn * M.ndof) {G : Nat → General} (hG : Built M I weight basis x G)
    (hone : M.domains.length = 1) (hall : ∀ c, c < M.size (M.part 0) → gcell (M.part 0) c = c)
    (hn : M.size (M.part 0) ≤ M.nc) (hw : (P 0).cubWeight = weight) (hd : I.density ≠ 0)
    (hvol : ∑ c ∈ range (M.size (M.part 0)), meshVolume M x c * weight ≠ 0) {e : Nat → List Nat}
    (he : ∀ k, IsSchedule (e k) (M.size (M.part k))) {sv : Sched} {w : Nat} (hsv : sv.Ok M 1 w) (dt : ℝ)
    (hin : ∀ c, c < M.size (M.part 0) → cellOver M P (G 0) 0 u x c ≤ 1) {z : List ℝ} (hz : z.length = M.nn)
    (hfull : ∀ c, c < M.nc → ∀ a, a < M.npc → M.cellZ z c a = 1) :
    physicsValue M (generalEval abs Real.sqrt id id Plato.simp P basis G e) Post.none sv [u] z x dt =
      .ok I.massWeight := by
  have h0 : 0 < M.domains.length := by omega
  have hg := built_norm hM h.dim hb hsum hx hG h0 hn
  have hlam : ∀ k, k < M.domains.length → M.size (M.part k) ≤ (G k).base.lam.length := by
    intro k hk
    have hk0 : k = 0 := by omega
    subst hk0
    rw [hg]
    show _ ≤ (List.replicate M.nc I.lam0).length
    rw [List.length_replicate]
    exact hn
  rw [C103_within hM h hb hlam he (by simpa using hu) hz hx hsv hsum dt ?_]
  · rw [hone, sum_range_one, List.length_singleton, sum_range_one]
    refine congrArg Res.ok ?_
    have e1 : ∀ c, c ∈ range (M.size (M.part 0)) →
        (G 0).massWeight * ((∑ j ∈ range M.npc, at0 basis j * M.cellZ z (gcell (M.part 0) c) j) * (G 0).density *
            (meshVolume M x (gcell (M.part 0) c) * (P 0).cubWeight) / (G 0).norm) =
        I.massWeight * (I.density * (meshVolume M x c * weight) / (G 0).norm) := by
      intro c hc
      have hc' := mem_range.1 hc
      have hone : ∑ j ∈ range M.npc, at0 basis j * M.cellZ z (gcell (M.part 0) c) j = 1 := by
        rw [← hsum]
        refine sum_congr rfl fun j hj => ?_
        rw [hall c hc', hfull c (by omega) j (mem_range.1 hj), mul_one]
      rw [hone, hall c hc', hw]
      have m1 : (G 0).massWeight = I.massWeight := by rw [hg]; rfl
      have m2 : (G 0).density = I.density := by rw [hg]; rfl
      rw [m1, m2, one_mul]
    rw [sum_congr rfl e1, ← mul_sum]
    have m3 : (G 0).norm = ∑ c ∈ range (M.size (M.part 0)), I.density * (meshVolume M x c * weight) := by rw [hg]
    rw [← sum_div, ← m3, div_self, mul_one]
    rw [m3, ← mul_sum]
    exact mul_ne_zero hd hvol
  · intro k c u' hu' hk hc
    have hk0 : k = 0 := by omega
    subst hk0
    rw [List.mem_singleton] at hu'
    subst hu'
    exact hin c hc

end Full

/-! ## The normalisation of the user -/

/-- Basis functions at the centre of a triangle. -/
noncomputable def third : List ℝ := [1 / 3, 1 / 3, 1 / 3]

theorem third_sum : ∑ i ∈ range 3, at0 third i = 1 := by
  simp only [sum_range_succ, sum_range_zero, at0, third]
  norm_num

/-- Coordinates of a unit square. -/
def unitSquare : List ℝ := [0, 0, 1, 0, 0, 1, 1, 1]

theorem unit_volume0 : meshVolume square unitSquare 0 = 1 := by
  unfold meshVolume
  norm_num [detForm, edge, FeModel.cellX, square, cellNode, FeModel.npc, at0, atN, unitSquare]

theorem unit_volume1 : meshVolume square unitSquare 1 = 1 := by
  unfold meshVolume
  norm_num [detForm, edge, FeModel.cellX, square, cellNode, FeModel.npc, at0, atN, unitSquare]

/-- Inputs with the defaults of lines 92-105 and a given normalisation. -/
noncomputable def defaultInputs (norm : ℝ) : GeneralInputs :=
  ⟨⟨1 / 1000000000, 3, 3, 0, 0⟩, 1, 1 / 4, 500, 3 / 2, 1 / 100, 1, 1, 1, norm⟩

/-- **C103 refuted for the normalisation**: the "Mass Normalization Multiplier" of the input is not used. -/
theorem C103_normalisation_false : ¬ ∀ (M : FeModel) (I : GeneralInputs) (weight : ℝ) (basis x : List ℝ) (G : Nat → General),
    M.Ok → (M.dim = 1 ∨ M.dim = 2 ∨ M.dim = 3) → basis.length = M.npc → ∑ i ∈ range M.npc, at0 basis i = 1 →
    x.length = M.nn * M.dim → Built M I weight basis x G → ∀ k, k < M.domains.length → (G k).norm = I.norm := by
  intro H
  let G : Nat → General := fun k =>
    { (defaultInputs 7).members square.nc with norm := ∑ c ∈ range (square.size (square.part k)),
        (defaultInputs 7).density * (meshVolume square unitSquare c * (1 / 2)) }
  have hG : Built square (defaultInputs 7) (1 / 2) third unitSquare G := by
    intro k hk
    have hk' : k < 2 := hk
    refine ⟨_, _, [List.range (square.size (square.part k))], IsSchedule.range _, IsSchedule.range _,
      by simp [IsPartition], ?_⟩
    refine C103_new square_ok (.inr (.inl rfl)) rfl third_sum _ _ ?_ rfl (IsSchedule.range _) (IsSchedule.range _)
      (by simp [IsPartition])
    interval_cases k <;> decide
  have := H square (defaultInputs 7) (1 / 2) third unitSquare G square_ok (.inr (.inl rfl)) rfl third_sum rfl hG 0
    (by decide)
  change ∑ c ∈ range 1, (1 : ℝ) * (meshVolume square unitSquare c * (1 / 2)) = 7 at this
  rw [sum_range_one, unit_volume0] at this
  norm_num at this

/-! ## Blocks -/

/-- The square of two triangles as one block. -/
def oneBlock : FeModel := { square with domains := [[0, 1]] }

theorem oneBlock_ok : oneBlock.Ok :=
  ⟨square_ok.dim, square_ok.ndof, square_ok.mesh, square_ok.adj, square_ok.graph, by decide, by decide⟩

/-- Inputs without the stress. -/
noncomputable def massOnly : GeneralInputs :=
  ⟨⟨1 / 1000000000, 3, 3, 0, 0⟩, 1, 1 / 4, 500, 3 / 2, 1 / 100, 1, 0, 1, 1⟩

/-- What the constructor makes from these inputs. -/
noncomputable def massObjects (M : FeModel) (k : Nat) : General :=
  { massOnly.members M.nc with norm := ∑ c ∈ range (M.size (M.part k)), massOnly.density *
    (meshVolume M unitSquare c * 1) }

theorem massObjects_built {M : FeModel} (hM : M.Ok) (hdim : M.dim = 2) (hx : unitSquare.length = M.nn * M.dim)
    (hs : ∀ k, k < M.domains.length → M.size (M.part k) ≤ M.nc) :
    Built M massOnly 1 third unitSquare (massObjects M) := by
  have hnp : M.npc = 3 := by rw [FeModel.npc, hdim]
  intro k hk
  exact ⟨_, _, [List.range (M.size (M.part k))], IsSchedule.range _, IsSchedule.range _, by simp [IsPartition],
    C103_new hM (.inr (.inl hdim)) (by rw [hnp]; rfl) (by rw [hnp]; exact third_sum) _ _ (hs k hk) hx
      (IsSchedule.range _) (IsSchedule.range _) (by simp [IsPartition])⟩

theorem full_density (c j : Nat) (hc : c < 2) (hj : j < 3) : square.cellZ [1, 1, 1, 1] c j = 1 := by
  interval_cases c <;> interval_cases j <;>
    simp [FeModel.cellZ, square, cellNode, FeModel.npc, at0, atN]

theorem full_mass (c : Nat) (hc : c < 2) : ∑ j ∈ range 3, at0 third j * square.cellZ [1, 1, 1, 1] c j = 1 := by
  exact (sum_congr rfl fun j hj => by rw [full_density c j hc (mem_range.1 hj), mul_one]).trans third_sum

theorem square_full (u : List ℝ) (hu : u.length = 8) (dt : ℝ) :
    physicsValue square (generalEval abs Real.sqrt id id Plato.simp (fun _ => unitMaterial 2) third (massObjects square)
      (fun k => List.range (square.size (square.part k)))) Post.none (seqSch square 6) [u] [1, 1, 1, 1] unitSquare dt =
      .ok 2 := by
  rw [C103_value square_ok ⟨.inr (.inl rfl), rfl, fun _ _ => rfl⟩ rfl (fun k hk => by
    have hk' : k < 2 := hk
    interval_cases k <;> decide) (fun k => IsSchedule.range _) (fun v hv => (congrArg List.length (List.mem_singleton.1 hv)).trans hu) rfl rfl (seqSch_ok _ _ _) third_sum dt]
  refine congrArg Res.ok ?_
  change ∑ k ∈ range 2, ∑ t ∈ range 1, _ = _
  rw [sum_range_succ, sum_range_one, sum_range_one, sum_range_one]
  change ∑ c ∈ range 1, _ + ∑ c ∈ range 1, _ = _
  rw [sum_range_one, sum_range_one]
  have n0 : (massObjects square 0).norm = 1 := by
    change ∑ c ∈ range 1, (1 : ℝ) * (meshVolume square unitSquare c * 1) = 1
    rw [sum_range_one, unit_volume0]
    norm_num
  have n1 : (massObjects square 1).norm = 1 := by
    change ∑ c ∈ range 1, (1 : ℝ) * (meshVolume square unitSquare c * 1) = 1
    rw [sum_range_one, unit_volume0]
    norm_num
  have w0 : ∀ k, (massObjects square k).stressWeight = 0 := fun _ => rfl
  have w1 : ∀ k, (massObjects square k).massWeight = 1 := fun _ => rfl
  have w2 : ∀ k, (massObjects square k).density = 1 := fun _ => rfl
  have g0 : gcell (square.part 0) 0 = 0 := rfl
  have g1 : gcell (square.part 1) 0 = 1 := rfl
  have hnp : square.npc = 3 := rfl
  have hcub : (unitMaterial 2).cubWeight = 1 := rfl
  rw [n0, n1, w0, w0, w1, w1, w2, w2, g0, g1, hnp, full_mass 0 (by omega), full_mass 1 (by omega), unit_volume0,
    unit_volume1, hcub]
  norm_num

theorem oneBlock_full (u : List ℝ) (hu : u.length = 8) (dt : ℝ) :
    physicsValue oneBlock (generalEval abs Real.sqrt id id Plato.simp (fun _ => unitMaterial 2) third
      (massObjects oneBlock) (fun k => List.range (oneBlock.size (oneBlock.part k)))) Post.none (seqSch oneBlock 6) [u]
      [1, 1, 1, 1] unitSquare dt = .ok 1 := by
  rw [C103_value oneBlock_ok ⟨.inr (.inl rfl), rfl, fun _ _ => rfl⟩ rfl (fun k hk => by
    have hk' : k < 1 := hk
    interval_cases k; decide) (fun k => IsSchedule.range _) (fun v hv => (congrArg List.length (List.mem_singleton.1 hv)).trans hu) rfl rfl (seqSch_ok _ _ _) third_sum dt]
  refine congrArg Res.ok ?_
  change ∑ k ∈ range 1, ∑ t ∈ range 1, _ = _
  rw [sum_range_one, sum_range_one]
  change ∑ c ∈ range 2, _ = _
  rw [sum_range_succ, sum_range_one]
  have v0 : meshVolume oneBlock unitSquare 0 = 1 := unit_volume0
  have v1 : meshVolume oneBlock unitSquare 1 = 1 := unit_volume1
  have n0 : (massObjects oneBlock 0).norm = 2 := by
    change ∑ c ∈ range 2, (1 : ℝ) * (meshVolume oneBlock unitSquare c * 1) = 2
    rw [sum_range_succ, sum_range_one, v0, v1]
    norm_num
  have w0 : ∀ k, (massObjects oneBlock k).stressWeight = 0 := fun _ => rfl
  have w1 : ∀ k, (massObjects oneBlock k).massWeight = 1 := fun _ => rfl
  have w2 : ∀ k, (massObjects oneBlock k).density = 1 := fun _ => rfl
  have g0 : gcell (oneBlock.part 0) 0 = 0 := rfl
  have g1 : gcell (oneBlock.part 0) 1 = 1 := rfl
  have hnp : oneBlock.npc = 3 := rfl
  have hcub : (unitMaterial 2).cubWeight = 1 := rfl
  have f0 : ∑ j ∈ range 3, at0 third j * oneBlock.cellZ [1, 1, 1, 1] 0 j = 1 := full_mass 0 (by omega)
  have f1 : ∑ j ∈ range 3, at0 third j * oneBlock.cellZ [1, 1, 1, 1] 1 j = 1 := full_mass 1 (by omega)
  rw [n0, w0, w1, w2, g0, g1, hnp, f0, f1, v0, v1, hcub]
  norm_num

/-- **C103 refuted for blocks**: the same body, with the same inputs, has twice the criterion when its mesh is
split into two blocks: each block is normalised with its own mass (and, for the stress, with its own number
of cells), and the values are added. -/
theorem C103_blocks_false : ¬ ∀ (M M' : FeModel) (P : Nat → Elastostatic ℝ) (I : GeneralInputs) (weight : ℝ)
    (basis u z x : List ℝ) (G G' : Nat → General), M.Ok → M'.Ok → M' = { M with domains := M'.domains } →
    M.domains.flatten = List.range M.nc → M'.domains.flatten = List.range M.nc → MechOk M P → MechOk M' P →
    basis.length = M.npc → ∑ i ∈ range M.npc, at0 basis i = 1 → u.length = M.nn * M.ndof → z.length = M.nn →
    x.length = M.nn * M.dim → (∀ k, (P k).cubWeight = weight) → Built M I weight basis x G →
    Built M' I weight basis x G' →
    physicsValue M (generalEval abs Real.sqrt id id Plato.simp P basis G (fun k => List.range (M.size (M.part k))))
      Post.none (seqSch M 6) [u] z x 0 =
    physicsValue M' (generalEval abs Real.sqrt id id Plato.simp P basis G' (fun k => List.range (M'.size (M'.part k))))
      Post.none (seqSch M' 6) [u] z x 0 := by
  intro H
  have := H square oneBlock (fun _ => unitMaterial 2) massOnly 1 third (List.replicate 8 0) [1, 1, 1, 1] unitSquare
    (massObjects square) (massObjects oneBlock) square_ok oneBlock_ok rfl rfl rfl ⟨.inr (.inl rfl), rfl, fun _ _ => rfl⟩
    ⟨.inr (.inl rfl), rfl, fun _ _ => rfl⟩ rfl third_sum rfl rfl rfl (fun _ => rfl)
    (massObjects_built square_ok rfl rfl (fun k hk => by
      have hk' : k < 2 := hk
      interval_cases k <;> decide))
    (massObjects_built oneBlock_ok rfl rfl (fun k hk => by
      have hk' : k < 1 := hk
      interval_cases k; decide))
  rw [square_full _ rfl, oneBlock_full _ rfl] at this
  have h2 := Res.ok.inj this
  norm_num at h2

/-! ## The hypotheses are met -/

/-- A model with two blocks, its objects and two calls: what `C103_history` and `C103_gradients` ask. -/
example : let F : Nat → GenCopies := fun k => ⟨massObjects square k, massObjects square k, massObjects square k,
      massObjects square k⟩
    let s := fun k => List.range (square.size (square.part k))
    let call : UpdateSched × List ℝ × List ℝ := (⟨s, s, s, fun k _ => s k⟩, [0, 0, 0, 0, 0, 0, 1, 1], [1, 1, 1, 1])
    square.Ok ∧ MechOk square (fun _ => unitMaterial 2) ∧ GenAgree square F ∧
      (∀ k, k < square.domains.length → (F k).value.base.Ok square.nc ∧ 0 < (F k).value.base.limit ∧
        (F k).value.norm ≠ 0) ∧ (∀ c ∈ [call, call], CallOk square c) ∧
      ∀ c, c < square.nc → goodGen square (fun k => (F k).value) (square.cellZ [1, 1, 1, 1] c)
        (square.cellX unitSquare c) := by
  refine ⟨square_ok, ⟨.inr (.inl rfl), rfl, fun _ _ => rfl⟩, fun _ _ => ⟨rfl, rfl, rfl⟩, fun k hk => ⟨?_, ?_, ?_⟩, ?_, ?_⟩
  · exact AugLag.new_ok _ _ _ _ _ _ _ (by norm_num [massOnly]) (by norm_num [massOnly]) (by norm_num [massOnly])
      (by norm_num [massOnly]) (by norm_num [massOnly])
  · exact one_pos
  · have hk' : k < 2 := hk
    have : square.size (square.part k) = 1 := by interval_cases k <;> rfl
    change ∑ c ∈ range (square.size (square.part k)), (1 : ℝ) * (meshVolume square unitSquare c * 1) ≠ 0
    rw [this, sum_range_one, unit_volume0]
    norm_num
  · intro c hc
    simp only [List.mem_cons, List.not_mem_nil, or_false, or_self] at hc
    subst hc
    refine ⟨⟨fun k _ => IsSchedule.range _, fun k _ => IsSchedule.range _, fun k _ => IsSchedule.range _,
      fun k _ _ => IsSchedule.range _⟩, rfl, rfl, fun i => ?_⟩
    match i with
    | 0 => norm_num [at0]
    | 1 => norm_num [at0]
    | 2 => norm_num [at0]
    | 3 => norm_num [at0]
    | n + 4 => simp [at0]
  · intro c hc
    have hc : c < 2 := hc
    refine ⟨?_, fun k _ => .inr ?_⟩
    · have h0 := unit_volume0
      have h1 := unit_volume1
      unfold meshVolume at h0 h1
      interval_cases c
      · intro h
        rw [h] at h0
        norm_num at h0
      · intro h
        rw [h] at h1
        norm_num at h1
    · show (1 : ℝ) ≤ 3
      norm_num

/-- The square as one block meets the hypotheses of `C103_full_partial` on model, block, volume and control. -/
example : oneBlock.Ok ∧ MechOk oneBlock (fun _ => unitMaterial 2) ∧ Built oneBlock massOnly 1 third unitSquare (massObjects oneBlock) ∧
    oneBlock.domains.length = 1 ∧ (∀ c, c < oneBlock.size (oneBlock.part 0) → gcell (oneBlock.part 0) c = c) ∧
    ∑ c ∈ range (oneBlock.size (oneBlock.part 0)), meshVolume oneBlock unitSquare c * 1 ≠ 0 ∧
    ∀ c, c < oneBlock.nc → ∀ a, a < oneBlock.npc → oneBlock.cellZ [1, 1, 1, 1] c a = 1 := by
  refine ⟨oneBlock_ok, ⟨.inr (.inl rfl), rfl, fun _ _ => rfl⟩, massObjects_built oneBlock_ok rfl rfl (fun k hk => by
      have hk' : k < 1 := hk
      interval_cases k; decide), rfl, ?_, ?_, fun c hc a ha => full_density c a hc ha⟩
  · intro c hc
    have hc' : c < 2 := hc
    interval_cases c <;> rfl
  · have v0 : meshVolume oneBlock unitSquare 0 = 1 := unit_volume0
    have v1 : meshVolume oneBlock unitSquare 1 = 1 := unit_volume1
    change ∑ c ∈ range 2, _ ≠ _
    rw [sum_range_succ, sum_range_one, v0, v1]
    norm_num

end Plato.Crit
