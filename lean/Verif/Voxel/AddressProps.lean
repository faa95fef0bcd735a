import Verif.Voxel.FillProps

/-!
# C46: voxel addressing and bounding box; C64: moving point based voxelizations
-/

namespace Volmdlr
open Voxel

variable {d : ℕ} {K : Type} [Field K] [LinearOrder K] [IsStrictOrderedRing K] [FloorRing K]

/-- **Specification.** The point is in the voxel of the given centre (faces included). -/
def InVoxel (size : K) (centre p : Fin d → K) : Prop := ∀ i, centre i - size / 2 ≤ p i ∧ p i ≤ centre i + size / 2

/-- **C46 (addressing), full statement.** For every voxelization on a grid and every point in a voxel of it, the
address used by `flood_fill` is that of a voxel that contains the point. -/
def C46_addressing_full_statement (d : ℕ) (K : Type) [Field K] [LinearOrder K] [IsStrictOrderedRing K] [FloorRing K] : Prop :=
  ∀ (v : PointVox d K) (h : v.centres.Nonempty), 0 < v.size → (∃ o : Fin d → K, ∀ p ∈ v.centres, ∀ i, ∃ k : ℤ, p i = o i + k * v.size) →
    ∀ centre ∈ v.centres, ∀ p, InVoxel v.size centre p →
      ∃ c, v.localIndex h p = .ok c ∧ InVoxel v.size (fun i => v.minC h i + c i * v.size) p

namespace Voxel

theorem minC_le (v : PointVox d K) (h : v.centres.Nonempty) {p : Fin d → K} (hp : p ∈ v.centres) (i : Fin d) : v.minC h i ≤ p i :=
  Finset.inf'_le (fun p : Fin d → K => p i) hp

theorem le_maxC (v : PointVox d K) (h : v.centres.Nonempty) {p : Fin d → K} (hp : p ∈ v.centres) (i : Fin d) : p i ≤ v.maxC h i :=
  Finset.le_sup' (fun p : Fin d → K => p i) hp

theorem exists_minC (v : PointVox d K) (h : v.centres.Nonempty) (i : Fin d) : ∃ p ∈ v.centres, v.minC h i = p i :=
  Finset.exists_mem_eq_inf' h fun p => p i

theorem exists_maxC (v : PointVox d K) (h : v.centres.Nonempty) (i : Fin d) : ∃ p ∈ v.centres, v.maxC h i = p i :=
  Finset.exists_mem_eq_sup' h fun p => p i

theorem localIndex_eq (v : PointVox d K) (h : v.centres.Nonempty) (h0 : 0 < v.size) (centre : Fin d → K) (hc : centre ∈ v.centres)
    (p : Fin d → K) (hp : InVoxel v.size centre p) : v.localIndex h p = .ok fun i => ⌊(p i - (v.minC h i - v.size)) / v.size⌋ := by
  unfold PointVox.localIndex boundingBox
  dsimp only
  rw [if_pos]
  intro i
  have := hp i
  have := minC_le v h hc i
  have := le_maxC v h hc i
  constructor <;> linarith

end Voxel

/-- **C46 (addressing) is false.** At the centre of any voxel of any voxelization the address is one too large along
every axis. -/
theorem C46_addressing_counterexample (v : PointVox d K) (h : v.centres.Nonempty) (h0 : 0 < v.size) (o : Fin d → K)
    (hg : ∀ p ∈ v.centres, ∀ i, ∃ k : ℤ, p i = o i + k * v.size) (centre : Fin d → K) (hc : centre ∈ v.centres) :
    ∃ c : Cell d, (∀ i, centre i = v.minC h i + c i * v.size) ∧ v.localIndex h centre = .ok fun i => c i + 1 := by
  have hk : ∀ i, ∃ k : ℤ, centre i = v.minC h i + k * v.size := by
    intro i
    obtain ⟨q, hq, he⟩ := exists_minC v h i
    obtain ⟨k1, h1⟩ := hg centre hc i
    obtain ⟨k2, h2⟩ := hg q hq i
    exact ⟨k1 - k2, by rw [he, h1, h2]; push_cast; ring⟩
  choose c hcc using hk
  refine ⟨c, hcc, ?_⟩
  rw [localIndex_eq v h h0 centre hc centre fun i => ⟨by linarith, by linarith⟩]
  congr 1
  funext i
  rw [hcc i, show (v.minC h i + c i * v.size - (v.minC h i - v.size)) / v.size = ((c i + 1 : ℤ) : K) by
    have := h0.ne'
    push_cast; field_simp; ring]
  exact Int.floor_intCast _

/-- The full statement is false. -/
theorem C46_addressing_full_statement_counterexample : ¬ C46_addressing_full_statement 3 K := by
  intro hall
  let v : PointVox 3 K := ⟨{fun _ => 0}, 1⟩
  have hg : ∀ p ∈ v.centres, ∀ i, ∃ k : ℤ, p i = (fun _ => 0 : Fin 3 → K) i + k * v.size := by
    intro p hp i
    rw [Finset.mem_singleton.1 hp]
    exact ⟨0, by simp⟩
  have hne : v.centres.Nonempty := ⟨_, Finset.mem_singleton.2 rfl⟩
  have h0 : (0 : K) < v.size := one_pos
  have hm : (fun _ => 0 : Fin 3 → K) ∈ v.centres := Finset.mem_singleton.2 rfl
  obtain ⟨c, h1, h2⟩ := hall v hne h0 ⟨_, hg⟩ (fun _ => 0) hm (fun _ => 0) (fun i => ⟨by show (0 : K) - 1 / 2 ≤ 0; norm_num, by show (0 : K) ≤ 0 + 1 / 2; norm_num⟩)
  obtain ⟨c', h3, h4⟩ := C46_addressing_counterexample v hne h0 _ hg _ hm
  rw [h1] at h4
  cases h4
  have h5 := (h2 0).1
  have h6 := h3 0
  change v.minC hne 0 + ((c' 0 + 1 : ℤ) : K) * 1 - 1 / 2 ≤ 0 at h5
  change (0 : K) = v.minC hne 0 + (c' 0 : K) * 1 at h6
  push_cast at h5
  linarith

/-- **C46 (addressing, part).** The address is right for the points in the lower half of a voxel along each axis. -/
theorem C46_addressing_partial (v : PointVox d K) (h : v.centres.Nonempty) (h0 : 0 < v.size) (o : Fin d → K)
    (hg : ∀ p ∈ v.centres, ∀ i, ∃ k : ℤ, p i = o i + k * v.size) (centre : Fin d → K) (hc : centre ∈ v.centres)
    (p : Fin d → K) (hp : ∀ i, centre i - v.size / 2 ≤ p i ∧ p i < centre i) :
    ∃ c, v.localIndex h p = .ok c ∧ (∀ i, centre i = v.minC h i + c i * v.size) ∧ InVoxel v.size (fun i => v.minC h i + c i * v.size) p := by
  have hk : ∀ i, ∃ k : ℤ, centre i = v.minC h i + k * v.size := by
    intro i
    obtain ⟨q, hq, he⟩ := exists_minC v h i
    obtain ⟨k1, h1⟩ := hg centre hc i
    obtain ⟨k2, h2⟩ := hg q hq i
    exact ⟨k1 - k2, by rw [he, h1, h2]; push_cast; ring⟩
  choose c hcc using hk
  refine ⟨c, ?_, hcc, fun i => ?_⟩
  · rw [localIndex_eq v h h0 centre hc p fun i => ⟨(hp i).1, by have := (hp i).2; linarith⟩]
    congr 1
    funext i
    rw [Int.floor_eq_iff, le_div_iff₀ h0, div_lt_iff₀ h0]
    have := hp i
    have := hcc i
    constructor <;> linarith
  · have := hp i
    dsimp only
    rw [← hcc i]
    constructor <;> linarith

/-- **C46 (flood fill) is false.** `flood_fill` of a voxelization of one voxel, from the centre of this voxel, is an
`IndexError`. -/
theorem C46_flood_fill_counterexample (centre : Fin 3 → K) (size : K) (h0 : 0 < size) (fuel : ℕ) :
    (⟨{centre}, size⟩ : PointVox 3 K).floodFill dirs3 fuel ⟨centre, Finset.mem_singleton.2 rfl⟩ centre false = some (.error .indexError) := by
  have hg : ∀ p ∈ (⟨{centre}, size⟩ : PointVox 3 K).centres, ∀ i, ∃ k : ℤ, p i = centre i + k * size := by
    intro p hp i
    rw [Finset.mem_singleton.1 hp]
    exact ⟨0, by simp⟩
  have hne : (⟨{centre}, size⟩ : PointVox 3 K).centres.Nonempty := ⟨centre, Finset.mem_singleton.2 rfl⟩
  have hm : ∀ i, (⟨{centre}, size⟩ : PointVox 3 K).minC hne i = centre i := fun i => by
    simp [PointVox.minC]
  have hM : ∀ i, (⟨{centre}, size⟩ : PointVox 3 K).maxC hne i = centre i := fun i => by
    simp [PointVox.maxC]
  obtain ⟨c, h1, h2⟩ := C46_addressing_counterexample (⟨{centre}, size⟩ : PointVox 3 K) hne h0 centre hg centre (Finset.mem_singleton.2 rfl)
  have hc : ∀ i, c i = 0 := by
    intro i
    have := h1 i
    rw [hm] at this
    have h3 : (c i : K) * size = 0 := by linarith
    rcases mul_eq_zero.1 h3 with h4 | h4
    · exact_mod_cast h4
    · exact absurd h4 h0.ne'
  obtain ⟨m, h3, _, _, _⟩ := C45_to_matrix (⟨{centre}, size⟩ : PointVox 3 K) hne h0 centre hg
  unfold PointVox.floodFill
  rw [h2, h3]
  dsimp only
  have hsh : ∀ i, m.mat.shape i = 1 := by
    unfold PointVox.toMatrix at h3
    dsimp only at h3
    split_ifs at h3
    cases h3
    intro i
    show (round ((_ - _) / size + 1)).toNat = 1
    rw [hm, hM]
    simp
  unfold Vox.floodFill Voxel.floodFill
  rw [if_pos]
  · rfl
  · intro hin
    have := (hin 0).2
    rw [hsh] at this
    dsimp only at this
    rw [hc] at this
    simp at this

/-- **Specification.** The smallest box that contains a set of voxels. -/
def SmallestBox (centres : Set (Fin d → K)) (size : K) (lo hi : Fin d → K) : Prop :=
  ∀ i, (∃ p ∈ centres, lo i = p i - size / 2) ∧ (∃ p ∈ centres, hi i = p i + size / 2) ∧
    ∀ p ∈ centres, lo i ≤ p i - size / 2 ∧ p i + size / 2 ≤ hi i

/-- **C46 (bounding box).** The `bounding_box` of a point based voxelization contains all the voxels, but it is half a
voxel larger than the smallest box on each side. -/
theorem C46_bounding_box_partial (v : PointVox d K) (h : v.centres.Nonempty) (h0 : 0 < v.size) :
    let b := boundingBox (v.minC h) (v.maxC h) v.size
    SmallestBox (v.centres : Set (Fin d → K)) v.size (fun i => b.1 i + v.size / 2) (fun i => b.2 i - v.size / 2) ∧
    ∀ centre ∈ v.centres, ∀ p, InVoxel v.size centre p → ∀ i, b.1 i ≤ p i ∧ p i ≤ b.2 i := by
  intro b
  constructor
  · intro i
    refine ⟨?_, ?_, fun p hp => ?_⟩
    · obtain ⟨p, hp, he⟩ := exists_minC v h i
      exact ⟨p, hp, by simp only [b, boundingBox]; rw [he]; ring⟩
    · obtain ⟨p, hp, he⟩ := exists_maxC v h i
      exact ⟨p, hp, by simp only [b, boundingBox]; rw [he]; ring⟩
    · have := minC_le v h hp i
      have := le_maxC v h hp i
      simp only [b, boundingBox]
      constructor <;> linarith
  · intro c hc p hp i
    have := minC_le v h hc i
    have := le_maxC v h hc i
    have := hp i
    simp only [b, boundingBox]
    constructor <;> linarith

/-- **C46 (bounding box) is false.** The `bounding_box` of a voxelization is never the smallest box that contains it. -/
theorem C46_bounding_box_counterexample (hd : 0 < d) (v : PointVox d K) (h : v.centres.Nonempty) (h0 : 0 < v.size) :
    ¬ SmallestBox (v.centres : Set (Fin d → K)) v.size (boundingBox (v.minC h) (v.maxC h) v.size).1 (boundingBox (v.minC h) (v.maxC h) v.size).2 := by
  intro hb
  obtain ⟨⟨p, hp, he⟩, _, _⟩ := hb ⟨0, hd⟩
  have := minC_le v h hp ⟨0, hd⟩
  simp only [boundingBox] at he
  linarith

/-- A point in the lower half of a voxel. -/
example : ∀ i : Fin 2, (![1, 3] : Fin 2 → ℚ) i - 1 / 2 ≤ (![3/4, 11/4] : Fin 2 → ℚ) i ∧ (![3/4, 11/4] : Fin 2 → ℚ) i < (![1, 3] : Fin 2 → ℚ) i := by
  intro i; fin_cases i <;> constructor <;> norm_num

/-! ### C64 -/

namespace Voxel

theorem gridCentre_in (size : K) (h0 : 0 < size) (p : Fin d → K) : InVoxel size (gridCentre size p) p ∧ inImplicitGrid size (gridCentre size p) := by
  constructor
  · intro i
    have h1 := Int.floor_le (p i / size)
    have h2 := Int.lt_floor_add_one (p i / size)
    rw [le_div_iff₀ h0] at h1
    rw [div_lt_iff₀ h0] at h2
    unfold gridCentre
    constructor <;> linarith
  · intro i
    refine ⟨⌊p i / size⌋, ?_⟩
    unfold gridCentre
    have := h0.ne'
    field_simp
    ring

theorem gridCentre_self (size : K) (h0 : 0 < size) (p : Fin d → K) (hp : inImplicitGrid size p) : gridCentre size p = p := by
  funext i
  obtain ⟨k, hk⟩ := hp i
  rw [div_eq_iff h0.ne'] at hk
  have hfl : ⌊p i / size⌋ = k := by
    rw [Int.floor_eq_iff, le_div_iff₀ h0, div_lt_iff₀ h0]
    constructor <;> linarith
  unfold gridCentre
  rw [hfl]
  linarith

end Voxel

/-- **C64 (translation).** The voxels of a translated point based voxelization are on the implicit grid; each contains a
translated centre, and each translated centre is in one of them. -/
theorem C64_translation (v : PointVox d K) (h0 : 0 < v.size) (offset : Fin d → K) :
    (∀ q ∈ (v.translation offset).centres, inImplicitGrid v.size q ∧ ∃ p ∈ v.centres, InVoxel v.size q fun i => p i + offset i) ∧
    (∀ p ∈ v.centres, ∃ q ∈ (v.translation offset).centres, InVoxel v.size q fun i => p i + offset i) := by
  constructor
  · intro q hq
    obtain ⟨p, hp, rfl⟩ := Finset.mem_image.1 hq
    have := gridCentre_in v.size h0 fun i => p i + offset i
    exact ⟨this.2, p, hp, this.1⟩
  · intro p hp
    exact ⟨_, Finset.mem_image_of_mem _ hp, (gridCentre_in v.size h0 fun i => p i + offset i).1⟩

/-- **C64 (translation by whole voxels).** For a voxelization on the implicit grid and an offset that is a whole number of
voxels along each axis, the voxels are exactly the translated ones, none is lost or merged. -/
theorem C64_translation_exact (v : PointVox d K) (h0 : 0 < v.size) (hg : ∀ p ∈ v.centres, inImplicitGrid v.size p)
    (offset : Fin d → K) (ho : ∀ i, ∃ k : ℤ, offset i = k * v.size) :
    (v.translation offset).centres = v.centres.image (fun p i => p i + offset i) ∧
    (v.translation offset).centres.card = v.centres.card := by
  have he : (v.translation offset).centres = v.centres.image (fun p i => p i + offset i) := by
    unfold PointVox.translation
    dsimp only
    apply Finset.image_congr
    intro p hp
    apply gridCentre_self v.size h0
    intro i
    obtain ⟨k, hk⟩ := hg p hp i
    obtain ⟨l, hl⟩ := ho i
    refine ⟨k + l, ?_⟩
    rw [div_eq_iff h0.ne'] at hk ⊢
    dsimp only
    rw [hl]
    push_cast
    linarith
  refine ⟨he, ?_⟩
  rw [he]
  apply Finset.card_image_of_injective
  intro p q hpq
  funext i
  exact add_right_cancel (congrFun hpq i)

/-- A voxel of the implicit grid. -/
example : inImplicitGrid (1 / 2 : ℚ) ![1/4, -3/4] := by
  intro i
  fin_cases i
  · exact ⟨0, by norm_num⟩
  · exact ⟨-2, by norm_num⟩

end Volmdlr
