import Verif.Voxel.GridModel
import Verif.Voxel.FloodProps
import Mathlib.Tactic.FieldSimp
import Mathlib.Tactic.Ring
import Mathlib.Tactic.Linarith
import Mathlib.Tactic.NormNum

/-!
# C38 and C45: Boolean operations, cropping and conversions of matrix voxelizations
-/

namespace Volmdlr.Voxel

variable {d : ℕ} {K : Type} [Field K] [LinearOrder K] [IsStrictOrderedRing K] [FloorRing K]

omit [Field K] [LinearOrder K] [IsStrictOrderedRing K] [FloorRing K] in
theorem mkMat_val (shape : Fin d → ℕ) (f : Cell d → Bool) (c : Cell d) :
    (mkMat shape f).val c = true ↔ Inside shape c ∧ f c = true := by simp [mkMat]

theorem mem_trueCells (m : Mat d) (c : Cell d) : c ∈ trueCells m ↔ m.val c = true := by
  unfold trueCells
  rw [Finset.mem_filter, mem_cells]
  exact ⟨fun h => h.2, fun h => ⟨m.supp c h, h⟩⟩

omit [LinearOrder K] [IsStrictOrderedRing K] [FloorRing K] in
/-- A cell of the grid is a centre exactly if its value is true. -/
theorem mem_centres (v : Vox d K) (hs : v.size ≠ 0) [CharZero K] (p : Fin d → K) (c : Cell d)
    (hp : ∀ i, p i = v.minC i + c i * v.size) : p ∈ v.centres ↔ v.mat.val c = true := by
  constructor
  · rintro ⟨c', h1, h2⟩
    have : c' = c := by
      funext i
      have h3 := hp i
      rw [h2] at h3
      have h4 : ((c' i : ℤ) : K) = c i := mul_right_cancel₀ hs (add_left_cancel h3)
      exact_mod_cast h4
    rw [← this]; exact h1
  · intro h
    exact ⟨c, h, funext hp⟩

/-- The matrix is cropped: it has a true cell in the first and in the last layer of each axis. -/
def Cropped (m : Mat d) : Prop :=
  ∀ i, (∃ c, m.val c = true ∧ c i = 0) ∧ ∃ c, m.val c = true ∧ c i + 1 = m.shape i

theorem crop_of_nonempty (v : Vox d K) (h : (trueCells v.mat).Nonempty) :
    v.crop = ⟨sliceMat v.mat (fun i => (trueCells v.mat).inf' h fun c => c i) (fun i => (trueCells v.mat).sup' h fun c => c i),
      fun i => v.minC i + ((trueCells v.mat).inf' h fun c => c i : ℤ) * v.size, v.size⟩ := by
  unfold Vox.crop
  rw [dif_pos h]

theorem crop_of_empty (v : Vox d K) (h : ¬ (trueCells v.mat).Nonempty) : v.crop = v := by
  unfold Vox.crop
  rw [dif_neg h]

theorem lo_le {m : Mat d} (h : (trueCells m).Nonempty) {c : Cell d} (hc : m.val c = true) (i : Fin d) :
    ((trueCells m).inf' h fun c => c i) ≤ c i := Finset.inf'_le (fun c : Cell d => c i) ((mem_trueCells m c).2 hc)

theorem le_hi {m : Mat d} (h : (trueCells m).Nonempty) {c : Cell d} (hc : m.val c = true) (i : Fin d) :
    c i ≤ ((trueCells m).sup' h fun c => c i) := Finset.le_sup' (fun c : Cell d => c i) ((mem_trueCells m c).2 hc)

theorem exists_lo {m : Mat d} (h : (trueCells m).Nonempty) (i : Fin d) :
    ∃ c, m.val c = true ∧ ((trueCells m).inf' h fun c => c i) = c i := by
  obtain ⟨c, hc, he⟩ := Finset.exists_mem_eq_inf' h (fun c : Cell d => c i)
  exact ⟨c, (mem_trueCells m c).1 hc, he⟩

theorem exists_hi {m : Mat d} (h : (trueCells m).Nonempty) (i : Fin d) :
    ∃ c, m.val c = true ∧ ((trueCells m).sup' h fun c => c i) = c i := by
  obtain ⟨c, hc, he⟩ := Finset.exists_mem_eq_sup' h (fun c : Cell d => c i)
  exact ⟨c, (mem_trueCells m c).1 hc, he⟩

theorem slice_val (m : Mat d) (lo hi : Cell d) (hlo : ∀ c, m.val c = true → ∀ i, lo i ≤ c i) (hhi : ∀ c, m.val c = true → ∀ i, c i ≤ hi i)
    (c : Cell d) : (sliceMat m lo hi).val c = m.val fun i => c i + lo i := by
  rw [Bool.eq_iff_iff, sliceMat, mkMat_val]
  refine ⟨fun h => h.2, fun h => ⟨fun i => ?_, h⟩⟩
  have h1 := hlo _ h i
  have h2 := hhi _ h i
  constructor
  · omega
  · show c i < (((hi i + 1 - lo i).toNat : ℕ) : ℤ)
    omega

theorem crop_centres (v : Vox d K) : v.crop.centres = v.centres := by
  by_cases h : (trueCells v.mat).Nonempty
  · rw [crop_of_nonempty v h]
    ext p
    constructor
    · rintro ⟨c, h1, h2⟩
      dsimp only at h1 h2
      rw [slice_val _ _ _ (fun c hc i => lo_le h hc i) (fun c hc i => le_hi h hc i)] at h1
      refine ⟨_, h1, h2.trans (funext fun i => ?_)⟩
      push_cast
      ring
    · rintro ⟨c, h1, h2⟩
      refine ⟨fun i => c i - (trueCells v.mat).inf' h fun c => c i, ?_, h2.trans (funext fun i => ?_)⟩
      · dsimp only
        rw [slice_val _ _ _ (fun c hc i => lo_le h hc i) (fun c hc i => le_hi h hc i)]
        simpa using h1
      · dsimp only
        push_cast
        ring
  · rw [crop_of_empty v h]

theorem crop_size (v : Vox d K) : v.crop.size = v.size := by
  by_cases h : (trueCells v.mat).Nonempty
  · rw [crop_of_nonempty v h]
  · rw [crop_of_empty v h]

theorem crop_cropped (v : Vox d K) (h : (trueCells v.mat).Nonempty) : Cropped v.crop.mat := by
  rw [crop_of_nonempty v h]
  have hv := slice_val v.mat _ _ (fun c hc i => lo_le h hc i) (fun c hc i => le_hi h hc i)
  intro i
  constructor
  · obtain ⟨c, hc, he⟩ := exists_lo h i
    refine ⟨fun j => c j - (trueCells v.mat).inf' h fun c => c j, ?_, ?_⟩
    · dsimp only; rw [hv]; simpa using hc
    · dsimp only; rw [he]; omega
  · obtain ⟨c, hc, he⟩ := exists_hi h i
    refine ⟨fun j => c j - (trueCells v.mat).inf' h fun c => c j, ?_, ?_⟩
    · dsimp only; rw [hv]; simpa using hc
    · have := lo_le h hc i
      show c i - _ + 1 = (((_ : ℤ) + 1 - _).toNat : ℤ)
      dsimp only
      rw [he]
      omega

/-- Cropping a matrix with the same true cells as a cropped matrix. -/
theorem crop_eq_of_cropped (v w : Vox d K) (hs : w.size = v.size) (hm : w.minC = v.minC)
    (hc : Cropped v.mat) (hne : ∃ c, v.mat.val c = true) (hv : ∀ c, w.mat.val c = v.mat.val c) : w.crop.Eq v := by
  obtain ⟨c0, hc0⟩ := hne
  have h : (trueCells w.mat).Nonempty := ⟨c0, (mem_trueCells _ _).2 ((hv c0).trans hc0)⟩
  have hlo : ∀ i, ((trueCells w.mat).inf' h fun c => c i) = 0 := by
    intro i
    obtain ⟨⟨c, h1, h2⟩, _⟩ := hc i
    have h3 := lo_le h ((hv c).trans h1) i
    obtain ⟨c', h4, h5⟩ := exists_lo h i
    have := (v.mat.supp c' ((hv c').symm.trans h4) i).1
    omega
  have hhi : ∀ i, ((trueCells w.mat).sup' h fun c => c i) + 1 = v.mat.shape i := by
    intro i
    obtain ⟨_, ⟨c, h1, h2⟩⟩ := hc i
    have h3 := le_hi h ((hv c).trans h1) i
    obtain ⟨c', h4, h5⟩ := exists_hi h i
    have := (v.mat.supp c' ((hv c').symm.trans h4) i).2
    omega
  rw [crop_of_nonempty w h]
  refine ⟨hs, ?_, ?_, ?_⟩
  · funext i
    dsimp only
    rw [hlo i, hm]
    push_cast
    ring
  · funext i
    show (_ + 1 - _ : ℤ).toNat = _
    dsimp only
    rw [hlo i, hhi i]
    omega
  · intro c
    dsimp only
    rw [slice_val _ _ _ (fun c hc i => lo_le h hc i) (fun c hc i => le_hi h hc i), hv]
    congr 1
    funext i
    rw [hlo i]
    omega

theorem paste_ok (newShape : Fin d → ℕ) (start : Cell d) (m : Mat d) (h : ∀ i, start i + m.shape i ≤ newShape i) :
    paste newShape start m = .ok (mkMat newShape fun c => m.val fun i => c i - start i) := by
  unfold paste
  rw [if_pos]
  intro i
  have := h i
  left
  omega

/-- Shape of the new arrays in terms of the position on the common grid. -/
theorem logical_eq (f : Bool → Bool → Bool) (hf : f false false = false) (v w : Vox d K) (hs : v.size = w.size) (h0 : 0 < v.size) (h1 : v.size ≤ 1)
    (k : Cell d) (hk : ∀ i, w.minC i = v.minC i + k i * v.size) :
    ∃ (sh : Fin d → ℕ), (∀ i, max 0 (-k i) + v.mat.shape i ≤ sh i ∧ max 0 (k i) + w.mat.shape i ≤ sh i) ∧
      v.logical f w = .ok (Vox.crop ⟨mkMat sh fun c => f (v.mat.val fun i => c i - max 0 (-k i)) (w.mat.val fun i => c i - max 0 (k i)),
        fun i => v.minC i - (max 0 (-k i) : ℤ) * v.size, v.size⟩) := by
  have hmin : ∀ i, min (v.minC i) (w.minC i) = v.minC i - (max 0 (-k i) : ℤ) * v.size := by
    intro i
    rw [hk]
    rcases le_total 0 (k i) with h | h
    · have : (0 : K) ≤ k i := by exact_mod_cast h
      rw [min_eq_left (by nlinarith), max_eq_left (by omega)]
      push_cast; ring
    · have : (k i : K) ≤ 0 := by exact_mod_cast h
      rw [min_eq_right (by nlinarith), max_eq_right (by omega)]
      push_cast; ring
  have hw : ∀ i, w.minC i = v.minC i - (max 0 (-k i) : ℤ) * v.size + (max 0 (k i) : ℤ) * v.size := by
    intro i
    have : max 0 (k i) = max 0 (-k i) + k i := by omega
    rw [this, hk]
    push_cast
    ring
  have hne : v.size ≠ 0 := h0.ne'
  have hsv : ∀ i, ⌊(v.minC i - min (v.minC i) (w.minC i)) / v.size⌋ = max 0 (-k i) := by
    intro i
    rw [hmin, show (v.minC i - (v.minC i - (max 0 (-k i) : ℤ) * v.size)) / v.size = ((max 0 (-k i) : ℤ) : K) by field_simp; ring]
    exact Int.floor_intCast _
  have hsw : ∀ i, ⌊(w.minC i - min (v.minC i) (w.minC i)) / v.size⌋ = max 0 (k i) := by
    intro i
    rw [hmin, hw i, show (v.minC i - (max 0 (-k i) : ℤ) * v.size + (max 0 (k i) : ℤ) * v.size - (v.minC i - (max 0 (-k i) : ℤ) * v.size)) / v.size = ((max 0 (k i) : ℤ) : K) by field_simp; ring]
    exact Int.floor_intCast _
  have hsh : ∀ i, max 0 (-k i) + v.mat.shape i ≤ (⌊(max (v.maxC i + 1) (w.maxC i + 1) - min (v.minC i) (w.minC i)) / v.size⌋.toNat : ℤ) ∧
      max 0 (k i) + w.mat.shape i ≤ (⌊(max (v.maxC i + 1) (w.maxC i + 1) - min (v.minC i) (w.minC i)) / v.size⌋.toNat : ℤ) := by
    intro i
    constructor
    · refine le_trans ?_ (Int.self_le_toNat _)
      rw [Int.le_floor, le_div_iff₀ h0, hmin]
      have := le_max_left (v.maxC i + 1) (w.maxC i + 1)
      unfold Vox.maxC at this ⊢
      push_cast at this ⊢
      linarith
    · refine le_trans ?_ (Int.self_le_toNat _)
      rw [Int.le_floor, le_div_iff₀ h0, hmin]
      have := le_max_right (v.maxC i + 1) (w.maxC i + 1)
      unfold Vox.maxC at this ⊢
      rw [← hs, hw i] at this
      rw [← hs, hw i]
      push_cast at this ⊢
      linarith
  refine ⟨fun i => ⌊(max (v.maxC i + 1) (w.maxC i + 1) - min (v.minC i) (w.minC i)) / v.size⌋.toNat, hsh, ?_⟩
  unfold Vox.logical
  rw [if_neg (not_not.2 hs)]
  dsimp only
  simp only [hsv, hsw]
  rw [paste_ok _ _ _ fun i => (hsh i).1, paste_ok _ _ _ fun i => (hsh i).2]
  dsimp only
  congr 2
  have hmin' : (fun i => min (v.minC i) (w.minC i)) = fun i => v.minC i - (max 0 (-k i) : ℤ) * v.size := funext hmin
  rw [hmin']
  congr 1
  ext1
  · rfl
  · funext c
    rw [Bool.eq_iff_iff, mkMat_val, mkMat_val]
    constructor
    · rintro ⟨h2, h3⟩
      refine ⟨h2, ?_⟩
      rw [← h3]
      simp [mkMat, h2]
    · rintro ⟨h2, h3⟩
      refine ⟨h2, ?_⟩
      rw [← h3]
      simp [mkMat, h2]

/-- The general form of C38. -/
theorem logical_centres (f : Bool → Bool → Bool) (hf : f false false = false) (v w : Vox d K) (hs : v.size = w.size) (h0 : 0 < v.size) (h1 : v.size ≤ 1)
    (k : Cell d) (hk : ∀ i, w.minC i = v.minC i + k i * v.size) :
    ∃ r, v.logical f w = .ok r ∧ r.size = v.size ∧
      ∀ p, p ∈ r.centres ↔ ∃ a b, f a b = true ∧ (a = true ↔ p ∈ v.centres) ∧ (b = true ↔ p ∈ w.centres) := by
  obtain ⟨sh, hsh, he⟩ := logical_eq f hf v w hs h0 h1 k hk
  refine ⟨_, he, by rw [crop_size], ?_⟩
  rw [crop_centres]
  have hv : ∀ c : Cell d, (fun i => v.minC i - (max 0 (-k i) : ℤ) * v.size + c i * v.size) ∈ v.centres ↔ v.mat.val (fun i => c i - max 0 (-k i)) = true :=
    fun c => mem_centres v h0.ne' _ _ fun i => by push_cast; ring
  have hw : ∀ c : Cell d, (fun i => v.minC i - (max 0 (-k i) : ℤ) * v.size + c i * v.size) ∈ w.centres ↔ w.mat.val (fun i => c i - max 0 (k i)) = true := by
    intro c
    refine mem_centres w (hs ▸ h0.ne') _ _ fun i => ?_
    have : max 0 (k i) = max 0 (-k i) + k i := by omega
    rw [this, hk, ← hs]
    push_cast; ring
  intro p
  constructor
  · rintro ⟨c, hc, rfl⟩
    rw [mkMat_val] at hc
    exact ⟨_, _, hc.2, (hv c).symm, (hw c).symm⟩
  · rintro ⟨a, b, hab, ha, hb⟩
    have hgrid : ∃ c : Cell d, Inside sh c ∧ p = fun i => v.minC i - (max 0 (-k i) : ℤ) * v.size + c i * v.size := by
      cases a with
      | true =>
        obtain ⟨c, h2, rfl⟩ := ha.1 rfl
        refine ⟨fun i => c i + max 0 (-k i), fun i => ?_, funext fun i => by push_cast; ring⟩
        have := v.mat.supp c h2 i
        have := (hsh i).1
        dsimp only
        omega
      | false =>
        cases b with
        | false => rw [hf] at hab; cases hab
        | true =>
          obtain ⟨c, h2, rfl⟩ := hb.1 rfl
          refine ⟨fun i => c i + max 0 (k i), fun i => ?_, funext fun i => ?_⟩
          · have := w.mat.supp c h2 i
            have := (hsh i).2
            dsimp only
            omega
          · have : max 0 (k i) = max 0 (-k i) + k i := by omega
            dsimp only
            rw [this, hk, ← hs]
            push_cast; ring
    obtain ⟨c, hin, rfl⟩ := hgrid
    refine ⟨c, ?_, rfl⟩
    rw [mkMat_val]
    refine ⟨hin, ?_⟩
    rw [hv] at ha
    rw [hw] at hb
    rw [← Bool.eq_iff_iff] at ha hb
    rw [← ha, ← hb]
    exact hab

end Volmdlr.Voxel

namespace Volmdlr
open Voxel

variable {d : ℕ} {K : Type} [Field K] [LinearOrder K] [IsStrictOrderedRing K] [FloorRing K]

/-- **Specification.** The two voxelizations are on the same grid. -/
def SameGrid (v w : Vox d K) : Prop := v.size = w.size ∧ ∀ i, ∃ k : ℤ, w.minC i = v.minC i + k * v.size

/-- **C38, full statement.** Each Boolean operation on two voxelizations on the same grid, of any voxel size, succeeds
and gives the set operation on the centres. -/
def C38_full_statement (d : ℕ) (K : Type) [Field K] [LinearOrder K] [IsStrictOrderedRing K] [FloorRing K] : Prop :=
  ∀ v w : Vox d K, SameGrid v w → 0 < v.size →
    (∃ r, v.union w = .ok r ∧ r.centres = v.centres ∪ w.centres) ∧
    (∃ r, v.intersection w = .ok r ∧ r.centres = v.centres ∩ w.centres) ∧
    (∃ r, v.difference w = .ok r ∧ r.centres = v.centres \ w.centres) ∧
    (∃ r, v.symmetricDifference w = .ok r ∧ r.centres = (v.centres \ w.centres) ∪ (w.centres \ v.centres))

/-- **C38 (part).** The statement for voxels whose size is at most 1.  For larger voxels it is false, because the code
adds `1` instead of one voxel size to the last centre, see `C38_large_voxels_counterexample`. -/
theorem C38_boolean_operations_partial (v w : Vox d K) (hg : SameGrid v w) (h0 : 0 < v.size) (h1 : v.size ≤ 1) :
    (∃ r, v.union w = .ok r ∧ r.size = v.size ∧ r.centres = v.centres ∪ w.centres) ∧
    (∃ r, v.intersection w = .ok r ∧ r.size = v.size ∧ r.centres = v.centres ∩ w.centres) ∧
    (∃ r, v.difference w = .ok r ∧ r.size = v.size ∧ r.centres = v.centres \ w.centres) ∧
    (∃ r, v.symmetricDifference w = .ok r ∧ r.size = v.size ∧ r.centres = (v.centres \ w.centres) ∪ (w.centres \ v.centres)) := by
  obtain ⟨hs, hk⟩ := hg
  choose k hk using hk
  refine ⟨?_, ?_, ?_, ?_⟩
  · obtain ⟨r, h2, h3, h4⟩ := logical_centres (fun a b => a || b) rfl v w hs h0 h1 k hk
    refine ⟨r, h2, h3, Set.ext fun p => (h4 p).trans ?_⟩
    simp only [Bool.exists_bool, Set.mem_union]
    by_cases h5 : p ∈ v.centres <;> by_cases h6 : p ∈ w.centres <;> simp [h5, h6]
  · obtain ⟨r, h2, h3, h4⟩ := logical_centres (fun a b => a && b) rfl v w hs h0 h1 k hk
    refine ⟨r, h2, h3, Set.ext fun p => (h4 p).trans ?_⟩
    simp only [Bool.exists_bool, Set.mem_inter_iff]
    by_cases h5 : p ∈ v.centres <;> by_cases h6 : p ∈ w.centres <;> simp [h5, h6]
  · obtain ⟨r, h2, h3, h4⟩ := logical_centres (fun a b => a && !b) rfl v w hs h0 h1 k hk
    refine ⟨r, h2, h3, Set.ext fun p => (h4 p).trans ?_⟩
    simp only [Bool.exists_bool, Set.mem_diff]
    by_cases h5 : p ∈ v.centres <;> by_cases h6 : p ∈ w.centres <;> simp [h5, h6]
  · obtain ⟨r, h2, h3, h4⟩ := logical_centres (fun a b => xor a b) rfl v w hs h0 h1 k hk
    refine ⟨r, h2, h3, Set.ext fun p => (h4 p).trans ?_⟩
    simp only [Bool.exists_bool, Set.mem_union, Set.mem_diff]
    by_cases h5 : p ∈ v.centres <;> by_cases h6 : p ∈ w.centres <;> simp [h5, h6]

/-- **C38 (errors).** Voxelizations with different voxel sizes are refused. -/
theorem C38_different_sizes (v w : Vox d K) (h : v.size ≠ w.size) :
    v.union w = .error .valueError ∧ v.intersection w = .error .valueError ∧ v.difference w = .error .valueError ∧
      v.symmetricDifference w = .error .valueError := by
  simp [Vox.union, Vox.intersection, Vox.difference, Vox.symmetricDifference, Vox.logical, h]

/-- **C38 is false for voxels larger than 1.** With any voxel size larger than 1, the union of any voxelization that has
at least two layers along some axis with itself is a `ValueError`; and the union of a voxelization that is one single
voxel with itself is empty. -/
theorem C38_large_voxels_counterexample (v : Vox d K) (h1 : 1 < v.size) :
    ((∃ i, 2 ≤ v.mat.shape i) → v.union v = .error .valueError) ∧
    (0 < d → (∀ i, v.mat.shape i = 1) → ∃ r, v.union v = .ok r ∧ r.centres = ∅) := by
  have h0 : 0 < v.size := lt_trans one_pos h1
  have hst : ∀ i, ⌊(v.minC i - min (v.minC i) (v.minC i)) / v.size⌋ = 0 := by intro i; simp
  have hfl : ∀ i, ⌊(max (v.maxC i + 1) (v.maxC i + 1) - min (v.minC i) (v.minC i)) / v.size⌋ = (v.mat.shape i : ℤ) - 1 := by
    intro i
    rw [max_self, min_self, Int.floor_eq_iff, le_div_iff₀ h0, div_lt_iff₀ h0]
    unfold Vox.maxC
    push_cast
    constructor <;> linarith
  constructor
  · rintro ⟨i, hi⟩
    have hp : paste (fun i => ⌊(max (v.maxC i + 1) (v.maxC i + 1) - min (v.minC i) (v.minC i)) / v.size⌋.toNat)
        (fun i => ⌊(v.minC i - min (v.minC i) (v.minC i)) / v.size⌋) v.mat = .error .valueError := by
      unfold paste
      rw [if_neg]
      intro h
      have h2 := h i
      dsimp only at h2
      rw [hst i, hfl i] at h2
      omega
    unfold Vox.union Vox.logical
    rw [if_neg (not_not.2 rfl)]
    dsimp only
    rw [hp]
  · intro hd hsh
    have hp : paste (fun i => ⌊(max (v.maxC i + 1) (v.maxC i + 1) - min (v.minC i) (v.minC i)) / v.size⌋.toNat)
        (fun i => ⌊(v.minC i - min (v.minC i) (v.minC i)) / v.size⌋) v.mat = .ok (mkMat (fun i => ⌊(max (v.maxC i + 1) (v.maxC i + 1) - min (v.minC i) (v.minC i)) / v.size⌋.toNat) fun c => v.mat.val fun i => c i - ⌊(v.minC i - min (v.minC i) (v.minC i)) / v.size⌋) := by
      unfold paste
      rw [if_pos fun i => Or.inr (hsh i)]
    unfold Vox.union Vox.logical
    rw [if_neg (not_not.2 rfl)]
    dsimp only
    rw [hp]
    refine ⟨_, rfl, ?_⟩
    rw [crop_centres]
    ext p
    simp only [Set.mem_empty_iff_false, iff_false]
    rintro ⟨c, hc, _⟩
    have h2 := ((mkMat_val _ _ _).1 hc).1 ⟨0, hd⟩
    dsimp only at h2
    rw [hfl, hsh] at h2
    simp at h2
    omega

/-- The full statement of C38 is false. -/
theorem C38_full_statement_counterexample : ¬ C38_full_statement 3 K := by
  intro h
  let v : Vox 3 K := ⟨mkMat (fun _ => 1) fun _ => true, fun _ => 0, 2⟩
  obtain ⟨⟨r, h1, h2⟩, _⟩ := h v v ⟨rfl, fun i => ⟨0, by simp⟩⟩ (by show (0 : K) < 2; norm_num)
  obtain ⟨r', h3, h4⟩ := (C38_large_voxels_counterexample v (by show (1 : K) < 2; norm_num)).2 (by norm_num) fun _ => rfl
  rw [h1] at h3
  cases h3
  rw [h4] at h2
  have : (fun _ => 0 : Fin 3 → K) ∈ v.centres := ⟨fun _ => 0, (mkMat_val _ _ _).2 ⟨by decide, rfl⟩, by simp [v]⟩
  have h5 : (fun _ => 0 : Fin 3 → K) ∈ v.centres ∪ v.centres := Or.inl this
  rw [← h2] at h5
  exact h5

/-- Two voxelizations with different origins and shapes on the same grid. -/
example : SameGrid (⟨mkMat ![1, 2, 1] fun _ => true, ![1/4, 1/4, 1/4], 1/2⟩ : Vox 3 ℚ)
    ⟨mkMat ![3, 2, 2] fun _ => true, ![-3/4, 5/4, 1/4], 1/2⟩ := by
  refine ⟨rfl, fun i => ?_⟩
  fin_cases i
  · exact ⟨-2, by norm_num⟩
  · exact ⟨2, by norm_num⟩
  · exact ⟨0, by norm_num⟩

/-- **C45 (crop).** Cropping keeps the voxels, and the result is minimal: if there is a voxel, the first and the last
layer along each axis have one. -/
theorem C45_crop (v : Vox d K) : v.crop.centres = v.centres ∧ v.crop.size = v.size ∧
    (v.centres.Nonempty → Cropped v.crop.mat) := by
  refine ⟨crop_centres v, crop_size v, ?_⟩
  rintro ⟨p, c, hc, _⟩
  exact crop_cropped v ⟨c, (mem_trueCells _ _).2 hc⟩

/-- **C45 (crop, again).** Cropping a cropped voxelization changes nothing. -/
theorem C45_crop_idempotent (v : Vox d K) : v.crop.crop.Eq v.crop := by
  by_cases h : (trueCells v.mat).Nonempty
  · have hc := crop_cropped v h
    have hne : ∃ c, v.crop.mat.val c = true := by
      obtain ⟨c, hcc⟩ := h
      have : (fun i => v.minC i + c i * v.size) ∈ v.centres := ⟨c, (mem_trueCells _ _).1 hcc, rfl⟩
      rw [← crop_centres] at this
      obtain ⟨c', h', _⟩ := this
      exact ⟨c', h'⟩
    exact crop_eq_of_cropped v.crop v.crop rfl rfl hc hne fun _ => rfl
  · rw [crop_of_empty v h, crop_of_empty v h]
    exact ⟨rfl, rfl, rfl, fun _ => rfl⟩

/-- **C45 (expand).** Expanding keeps the voxels, and adds one empty layer at each end of each axis. -/
theorem C45_expand (v : Vox d K) : v.expand.centres = v.centres ∧ (∀ i, v.expand.mat.shape i = v.mat.shape i + 2) ∧
    ∀ c, v.expand.mat.val c = true → ∀ i, 1 ≤ c i ∧ c i + 1 < v.expand.mat.shape i := by
  refine ⟨?_, fun _ => rfl, ?_⟩
  · ext p
    constructor
    · rintro ⟨c, h1, h2⟩
      have h1 := ((mkMat_val _ _ _).1 h1).2
      refine ⟨_, h1, h2.trans (funext fun i => ?_)⟩
      show v.minC i - v.size + c i * v.size = _
      push_cast
      ring
    · rintro ⟨c, h1, h2⟩
      refine ⟨fun i => c i + 1, ?_, h2.trans (funext fun i => ?_)⟩
      · refine (mkMat_val _ _ _).2 ⟨fun i => ?_, by simpa using h1⟩
        have := v.mat.supp c h1 i
        push_cast
        omega
      · show _ = v.minC i - v.size + _ * v.size
        push_cast
        ring
  · intro c h i
    have := v.mat.supp _ ((mkMat_val _ _ _).1 h).2 i
    show 1 ≤ c i ∧ c i + 1 < ((v.mat.shape i + 2 : ℕ) : ℤ)
    push_cast
    omega

/-- **C45 (reduce).** `_reduce` undoes `_expand`. -/
theorem C45_reduce_expand (v : Vox d K) : v.expand.reduce.Eq v := by
  refine ⟨rfl, ?_, ?_, ?_⟩
  · funext i
    show v.minC i - v.size + v.size = v.minC i
    ring
  · funext i
    show v.mat.shape i + 2 - 2 = v.mat.shape i
    omega
  · intro c
    rw [Bool.eq_iff_iff]
    constructor
    · intro h
      have h := ((mkMat_val _ _ _).1 ((mkMat_val _ _ _).1 h).2).2
      simpa using h
    · intro h
      have hi := v.mat.supp c h
      refine (mkMat_val _ _ _).2 ⟨fun i => ?_, (mkMat_val _ _ _).2 ⟨fun i => ?_, by simpa using h⟩⟩
      · have := hi i
        show 0 ≤ c i ∧ c i < ((v.mat.shape i + 2 - 2 : ℕ) : ℤ)
        omega
      · have := hi i
        show 0 ≤ c i + 1 ∧ c i + 1 < ((v.mat.shape i + 2 : ℕ) : ℤ)
        omega

/-- **C45 (reduce alone).** `_reduce` keeps the voxels of a matrix whose border is empty. -/
theorem C45_reduce (v : Vox d K) (h : ∀ c, v.mat.val c = true → ∀ i, 1 ≤ c i ∧ c i + 1 < v.mat.shape i) :
    v.reduce.centres = v.centres := by
  ext p
  constructor
  · rintro ⟨c, h1, h2⟩
    have h1 := ((mkMat_val _ _ _).1 h1).2
    refine ⟨_, h1, h2.trans (funext fun i => ?_)⟩
    show v.minC i + v.size + c i * v.size = _
    push_cast
    ring
  · rintro ⟨c, h1, h2⟩
    refine ⟨fun i => c i - 1, ?_, h2.trans (funext fun i => ?_)⟩
    · refine (mkMat_val _ _ _).2 ⟨fun i => ?_, by simpa using h1⟩
      have := h c h1 i
      show 0 ≤ c i - 1 ∧ c i - 1 < ((v.mat.shape i - 2 : ℕ) : ℤ)
      omega
    · show _ = v.minC i + v.size + _ * v.size
      push_cast
      ring

/-- **C45 (matrix to points).** -/
theorem C45_to_point (v : Vox d K) : (v.toPoint.centres : Set (Fin d → K)) = v.centres ∧ v.toPoint.size = v.size := by
  refine ⟨?_, rfl⟩
  ext p
  simp only [Vox.toPoint, Finset.coe_image, Set.mem_image, Finset.mem_coe, mem_trueCells]
  constructor
  · rintro ⟨c, h1, h2⟩; exact ⟨c, h1, h2.symm⟩
  · rintro ⟨c, h1, h2⟩; exact ⟨c, h1, h2.symm⟩

/-- **C45 (points to matrix).** For centres on a grid (with any origin) the conversion succeeds, keeps the voxels and
gives a cropped matrix. -/
theorem C45_to_matrix (v : PointVox d K) (h : v.centres.Nonempty) (h0 : 0 < v.size) (o : Fin d → K)
    (hg : ∀ p ∈ v.centres, ∀ i, ∃ k : ℤ, p i = o i + k * v.size) :
    ∃ m, v.toMatrix h = .ok m ∧ m.size = v.size ∧ m.centres = (v.centres : Set (Fin d → K)) ∧ Cropped m.mat := by
  have hmin : ∀ i, ∃ p ∈ v.centres, v.minC h i = p i := fun i => Finset.exists_mem_eq_inf' h fun p => p i
  have hmax : ∀ i, ∃ p ∈ v.centres, v.maxC h i = p i := fun i => Finset.exists_mem_eq_sup' h fun p => p i
  have hle : ∀ p ∈ v.centres, ∀ i, v.minC h i ≤ p i := fun p hp i => Finset.inf'_le (fun p : Fin d → K => p i) hp
  have hge : ∀ p ∈ v.centres, ∀ i, p i ≤ v.maxC h i := fun p hp i => Finset.le_sup' (fun p : Fin d → K => p i) hp
  have hne := h0.ne'
  -- the indices are exact
  have hidx : ∀ p ∈ v.centres, ∀ i, p i = v.minC h i + (round ((p i - v.minC h i) / v.size) : ℤ) * v.size := by
    intro p hp i
    obtain ⟨q, hq, hqe⟩ := hmin i
    obtain ⟨k1, hk1⟩ := hg p hp i
    obtain ⟨k2, hk2⟩ := hg q hq i
    have : (p i - v.minC h i) / v.size = ((k1 - k2 : ℤ) : K) := by
      rw [hqe, hk1, hk2]; push_cast; field_simp; ring
    rw [this, round_intCast, hqe, hk1, hk2]
    push_cast; ring
  have hshape : ∀ i, ∃ q ∈ v.centres, ((round ((v.maxC h i - v.minC h i) / v.size + 1)).toNat : ℤ) = round ((q i - v.minC h i) / v.size) + 1 ∧ v.maxC h i = q i := by
    intro i
    obtain ⟨q, hq, hqe⟩ := hmax i
    refine ⟨q, hq, ?_, hqe⟩
    rw [hqe, round_add_one]
    have h1 := hle q hq i
    have h2 := hidx q hq i
    have h3 : (0 : K) ≤ (round ((q i - v.minC h i) / v.size) : ℤ) := by
      by_contra hlt
      have : ((round ((q i - v.minC h i) / v.size) : ℤ) : K) * v.size < 0 := mul_neg_of_neg_of_pos (not_le.1 hlt) h0
      linarith
    have h4 : 0 ≤ round ((q i - v.minC h i) / v.size) := by exact_mod_cast h3
    omega
  have hin : ∀ p ∈ v.centres, Inside (fun i => (round ((v.maxC h i - v.minC h i) / v.size + 1)).toNat) fun i => round ((p i - v.minC h i) / v.size) := by
    intro p hp i
    obtain ⟨q, hq, hsh, hqm⟩ := hshape i
    have h1 := hidx p hp i
    have h2 := hidx q hq i
    have h3 := hle p hp i
    have h4 := hge p hp i
    rw [hqm] at h4
    constructor
    · have : (0 : K) ≤ (round ((p i - v.minC h i) / v.size) : ℤ) := by
        by_contra hlt
        have : ((round ((p i - v.minC h i) / v.size) : ℤ) : K) * v.size < 0 := mul_neg_of_neg_of_pos (not_le.1 hlt) h0
        linarith
      exact_mod_cast this
    · rw [hsh]
      have : ((round ((p i - v.minC h i) / v.size) : ℤ) : K) ≤ (round ((q i - v.minC h i) / v.size) : ℤ) := by
        refine le_of_mul_le_mul_right ?_ h0
        linarith
      have : round ((p i - v.minC h i) / v.size) ≤ round ((q i - v.minC h i) / v.size) := by exact_mod_cast this
      exact Int.lt_add_one_of_le this
  have hval : ∀ c : Cell d, (mkMat (fun i => (round ((v.maxC h i - v.minC h i) / v.size + 1)).toNat) fun c => decide (∃ p ∈ v.centres, (fun i => round ((p i - v.minC h i) / v.size)) = c)).val c = true ↔
      ∃ p ∈ v.centres, (fun i => round ((p i - v.minC h i) / v.size)) = c := by
    intro c
    rw [mkMat_val, decide_eq_true_iff]
    exact ⟨fun h => h.2, fun hp => ⟨by obtain ⟨p, hp, rfl⟩ := hp; exact hin p hp, hp⟩⟩
  refine ⟨⟨mkMat (fun i => (round ((v.maxC h i - v.minC h i) / v.size + 1)).toNat) fun c => decide (∃ p ∈ v.centres, (fun i => round ((p i - v.minC h i) / v.size)) = c), v.minC h, v.size⟩, ?_, rfl, ?_, ?_⟩
  · unfold PointVox.toMatrix
    dsimp only
    rw [if_pos hin]
  · ext p
    constructor
    · rintro ⟨c, h1, rfl⟩
      obtain ⟨q, hq, rfl⟩ := (hval c).1 h1
      have : (fun i => v.minC h i + ((round ((q i - v.minC h i) / v.size) : ℤ) : K) * v.size) = q := funext fun i => (hidx q hq i).symm
      show (fun i => v.minC h i + ((round ((q i - v.minC h i) / v.size) : ℤ) : K) * v.size) ∈ _
      rw [this]
      exact hq
    · intro hp
      exact ⟨_, (hval _).2 ⟨p, hp, rfl⟩, funext fun i => hidx p hp i⟩
  · intro i
    constructor
    · obtain ⟨q, hq, he⟩ := hmin i
      refine ⟨_, (hval _).2 ⟨q, hq, rfl⟩, ?_⟩
      rw [he]
      simp
    · obtain ⟨q, hq, hsh, _⟩ := hshape i
      refine ⟨_, (hval _).2 ⟨q, hq, rfl⟩, ?_⟩
      exact hsh.symm

/-- **C45 (round trip).** From a matrix to points and back the voxels are the same. -/
theorem C45_round_trip (v : Vox d K) (h0 : 0 < v.size) (h : v.toPoint.centres.Nonempty) :
    ∃ m, v.toPoint.toMatrix h = .ok m ∧ m.size = v.size ∧ m.centres = v.centres := by
  obtain ⟨m, h1, h2, h3, _⟩ := C45_to_matrix v.toPoint h h0 v.minC (by
    intro p hp i
    simp only [Vox.toPoint, Finset.mem_image] at hp
    obtain ⟨c, _, rfl⟩ := hp
    exact ⟨c i, rfl⟩)
  exact ⟨m, h1, h2, h3.trans (C45_to_point v).1⟩

/-- A voxelization with empty layers. -/
example : ((⟨mkMat ![3, 3] fun c => c 0 == 1, ![0, 0], 1/2⟩ : Vox 2 ℚ).centres).Nonempty :=
  ⟨_, ![1, 0], by decide, rfl⟩

example : ∀ p ∈ ({![1/4, 3/4], ![5/4, -1/4]} : Finset (Fin 2 → ℚ)), ∀ i, ∃ k : ℤ, p i = (1 / 4 : ℚ) + k * (1 / 2) := by
  intro p hp i
  simp only [Finset.mem_insert, Finset.mem_singleton] at hp
  rcases hp with rfl | rfl <;> fin_cases i
  · exact ⟨0, by norm_num⟩
  · exact ⟨1, by norm_num⟩
  · exact ⟨2, by norm_num⟩
  · exact ⟨-1, by norm_num⟩

end Volmdlr
