import Verif.Voxel.OverlapProps

/-!
# C141: merged voxels; C142: layers and inner growing voxels
-/

namespace Volmdlr
open Voxel

variable {K : Type} [Field K] [LinearOrder K] [IsStrictOrderedRing K] [FloorRing K]

/-! ## Specification -/

/-- **Specification.** The points of the closed voxels, given with their sizes. -/
def Covered (s : Set (K × (Fin 3 → K))) (p : Fin 3 → K) : Prop := ∃ e ∈ s, InVoxel e.1 e.2 p

namespace Voxel

open Classical in
/-- The common part of the two recursions. -/
noncomputable def mergeGen (cond : ℕ → Set (Fin 3 → K) → Prop) : ℕ → K → (Fin 3 → K) → Oct → Set (K × (Fin 3 → K))
  | 0, size, c, _ => {(size, c)}
  | n + 1, size, c, t =>
    let sub : Set (K × (Fin 3 → K)) :=
      {e | ∃ i, (t.child i).truthy = true ∧ e ∈ mergeGen cond n (size / 2) (childCentre (size / 2) c i) (t.child i)}
    if {p : Fin 3 → K | (size / 2, p) ∈ sub}.ncard = 8 ∧ cond n {p : Fin 3 → K | (size / 2, p) ∈ sub} then
      {e | e ∈ sub ∧ e.1 ≠ size / 2} ∪ {(size, c)} else sub

lemma merged_eq (n : ℕ) (size : K) (c : Fin 3 → K) (t : Oct) : mergedCentres n size c t = mergeGen (fun _ _ => True) n size c t := by
  induction n generalizing size c t with
  | zero => rfl
  | succ n ih =>
    rw [mergedCentres, mergeGen]
    simp only [ih, and_true]

lemma innerGrowing_eq (thick : (Fin 3 → K) → Prop) (n : ℕ) (size : K) (c : Fin 3 → K) (t : Oct) :
    innerGrowing thick n size c t = mergeGen (fun n s => n = 0 ∧ ∀ p ∈ s, thick p) n size c t := by
  induction n generalizing size c t with
  | zero => rfl
  | succ n ih =>
    have hsub : {e | ∃ i, (t.child i).truthy = true ∧ e ∈ innerGrowing thick n (size / 2) (childCentre (size / 2) c i) (t.child i)} =
        {e | ∃ i, (t.child i).truthy = true ∧
          e ∈ mergeGen (fun n s => n = 0 ∧ ∀ p ∈ s, thick p) n (size / 2) (childCentre (size / 2) c i) (t.child i)} := by
      ext e
      simp only [ih]
    rw [innerGrowing, mergeGen]
    rw [hsub]
    congr 1

/-- The voxels before the last merging. -/
def subVoxels (cond : ℕ → Set (Fin 3 → K) → Prop) (n : ℕ) (size : K) (c : Fin 3 → K) (t : Oct) : Set (K × (Fin 3 → K)) :=
  {e | ∃ i, (t.child i).truthy = true ∧ e ∈ mergeGen cond n (size / 2) (childCentre (size / 2) c i) (t.child i)}

/-- The eight sub-voxels are full and they are merged. -/
def Merges (cond : ℕ → Set (Fin 3 → K) → Prop) (n : ℕ) (size : K) (c : Fin 3 → K) (t : Oct) : Prop :=
  {p : Fin 3 → K | (size / 2, p) ∈ subVoxels cond n size c t}.ncard = 8 ∧ cond n {p : Fin 3 → K | (size / 2, p) ∈ subVoxels cond n size c t}

lemma mergeGen_merges {cond : ℕ → Set (Fin 3 → K) → Prop} {n : ℕ} {size : K} {c : Fin 3 → K} {t : Oct} (h : Merges cond n size c t) :
    mergeGen cond (n + 1) size c t = {e | e ∈ subVoxels cond n size c t ∧ e.1 ≠ size / 2} ∪ {(size, c)} := by
  rw [mergeGen]
  exact if_pos h

lemma mergeGen_not {cond : ℕ → Set (Fin 3 → K) → Prop} {n : ℕ} {size : K} {c : Fin 3 → K} {t : Oct} (h : ¬ Merges cond n size c t) :
    mergeGen cond (n + 1) size c t = subVoxels cond n size c t := by
  rw [mergeGen]
  exact if_neg h

/-- The sizes are halves of the size of the cube; only the cube itself has its size. -/
lemma mergeGen_sizes (cond : ℕ → Set (Fin 3 → K) → Prop) {size : K} (hs : 0 < size) (n : ℕ) (c : Fin 3 → K) (t : Oct) :
    ∀ e ∈ mergeGen cond n size c t, (∃ k ≤ n, e.1 * 2 ^ k = size ∧ (k = 0 → e.2 = c)) := by
  induction n generalizing size c t with
  | zero =>
    rintro e he
    rw [mergeGen, Set.mem_singleton_iff] at he
    rw [he]
    exact ⟨0, le_rfl, by simp, fun _ => rfl⟩
  | succ n ih =>
    have hsub : ∀ e ∈ subVoxels cond n size c t, ∃ k ≤ n + 1, e.1 * 2 ^ k = size ∧ (k = 0 → e.2 = c) := by
      rintro e ⟨i, _, he⟩
      obtain ⟨k, hk, h1, _⟩ := ih (by linarith) _ _ e he
      refine ⟨k + 1, by omega, by rw [pow_succ, ← mul_assoc, h1]; ring, fun h => by omega⟩
    intro e he
    by_cases hm : Merges cond n size c t
    · rw [mergeGen_merges hm] at he
      rcases he with he | he
      · exact hsub e he.1
      · rw [Set.mem_singleton_iff] at he
        rw [he]
        exact ⟨0, Nat.zero_le _, by simp, fun _ => rfl⟩
    · rw [mergeGen_not hm] at he
      exact hsub e he

/-- The entries of half the size are the full sub-voxels. -/
lemma sub_half {cond : ℕ → Set (Fin 3 → K) → Prop} {size : K} (hs : 0 < size) {n : ℕ} {c : Fin 3 → K} {t : Oct} {p : Fin 3 → K}
    (h : (size / 2, p) ∈ subVoxels cond n size c t) : ∃ i, p = childCentre (size / 2) c i ∧ (t.child i).truthy = true ∧
      (size / 2, p) ∈ mergeGen cond n (size / 2) (childCentre (size / 2) c i) (t.child i) := by
  obtain ⟨i, hi, he⟩ := h
  refine ⟨i, ?_, hi, he⟩
  obtain ⟨k, _, h1, h2⟩ := mergeGen_sizes cond (by linarith : 0 < size / 2) n _ _ _ he
  apply h2
  by_contra hk
  have h3 : (1 : K) < 2 ^ k := one_lt_pow₀ one_lt_two hk
  dsimp only at h1
  nlinarith

lemma childCentre_inj {size : K} (hs : 0 < size) (c : Fin 3 → K) : Function.Injective (childCentre size c) := by
  intro i j h
  apply octBit_ext
  intro a
  have h1 := congrFun h a
  unfold childCentre at h1
  have h2 : (octBit i a : K) = octBit j a := by
    have : (octBit i a : K) * size = octBit j a * size := by linarith
    exact mul_right_cancel₀ hs.ne' this
  exact_mod_cast h2

/-- The eight sub-voxels are merged if all of them are full. -/
lemma merges_iff {cond : ℕ → Set (Fin 3 → K) → Prop} {size : K} (hs : 0 < size) {n : ℕ} {c : Fin 3 → K} {t : Oct} :
    {p : Fin 3 → K | (size / 2, p) ∈ subVoxels cond n size c t}.ncard = 8 ↔ ∀ i, (size / 2, childCentre (size / 2) c i) ∈ subVoxels cond n size c t := by
  have hsub : {p : Fin 3 → K | (size / 2, p) ∈ subVoxels cond n size c t} ⊆ Set.range (childCentre (size / 2) c) := by
    intro p hp
    obtain ⟨i, hi, _⟩ := sub_half hs hp
    exact ⟨i, hi.symm⟩
  have hcard : (Set.range (childCentre (size / 2) c)).ncard = 8 := by
    rw [← Set.image_univ, Set.ncard_image_of_injective _ (childCentre_inj (by linarith) c), Set.ncard_univ]
    simp
  constructor
  · intro h i
    have := Set.eq_of_subset_of_ncard_le hsub (by rw [hcard, h]) (Set.finite_of_ncard_ne_zero (by rw [hcard]; norm_num))
    have hi : childCentre (size / 2) c i ∈ {p : Fin 3 → K | (size / 2, p) ∈ subVoxels cond n size c t} := by rw [this]; exact ⟨i, rfl⟩
    exact hi
  · intro h
    have : {p : Fin 3 → K | (size / 2, p) ∈ subVoxels cond n size c t} = Set.range (childCentre (size / 2) c) := by
      apply Set.Subset.antisymm hsub
      rintro _ ⟨i, rfl⟩
      exact h i
    rw [this, hcard]

/-- A point of the cube is in one of its sub-voxels. -/
lemma cube_children {size : K} (c p : Fin 3 → K) : InVoxel size c p ↔ ∃ i : Fin 8, InVoxel (size / 2) (childCentre (size / 2) c i) p := by
  constructor
  · intro h
    refine ⟨octantOf c p, fun a => ?_⟩
    unfold childCentre
    rw [octBit_octantOf]
    have := h a
    split_ifs with hlt
    · push_cast
      constructor <;> linarith [this.1, this.2]
    · push_cast
      constructor <;> linarith [this.1, this.2]
  · rintro ⟨i, h⟩ a
    have := h a
    unfold childCentre at this
    have hs : 0 ≤ size := by linarith [this.1, this.2]
    rcases octBit_cases i a with hb | hb <;> rw [hb] at this <;> push_cast at this <;> constructor <;> linarith [this.1, this.2]

lemma mergeGen_covered (cond : ℕ → Set (Fin 3 → K) → Prop) {size : K} (hs : 0 < size) (n : ℕ) (c : Fin 3 → K) (t : Oct) (p : Fin 3 → K) :
    Covered (mergeGen cond n size c t) p ↔ ∃ q ∈ leafCentres n size c t, InVoxel (size / 2 ^ n) q p := by
  induction n generalizing size c t with
  | zero => simp [Covered, mergeGen, leafCentres]
  | succ n ih =>
    have hsub : Covered (subVoxels cond n size c t) p ↔ ∃ q ∈ leafCentres (n + 1) size c t, InVoxel (size / 2 ^ (n + 1)) q p := by
      have e : size / 2 ^ (n + 1) = size / 2 / 2 ^ n := by rw [pow_succ, div_div, mul_comm]
      rw [e]
      constructor
      · rintro ⟨x, ⟨i, hi, hx⟩, hp⟩
        obtain ⟨q, hq, hin⟩ := (ih (by linarith) _ _).1 ⟨x, hx, hp⟩
        exact ⟨q, ⟨i, hi, hq⟩, hin⟩
      · rintro ⟨q, ⟨i, hi, hq⟩, hin⟩
        obtain ⟨x, hx, hp⟩ := (ih (by linarith) _ _).2 ⟨q, hq, hin⟩
        exact ⟨x, ⟨i, hi, hx⟩, hp⟩
    rw [← hsub]
    by_cases hm : Merges cond n size c t
    · rw [mergeGen_merges hm]
      have hall := (merges_iff hs).1 hm.1
      constructor
      · rintro ⟨e, he | he, hp⟩
        · exact ⟨e, he.1, hp⟩
        · rw [Set.mem_singleton_iff] at he
          rw [he] at hp
          obtain ⟨i, hi⟩ := (cube_children c p).1 hp
          exact ⟨_, hall i, hi⟩
      · rintro ⟨⟨s, q⟩, he, hp⟩
        by_cases hh : s = size / 2
        · subst hh
          obtain ⟨i, hi, _⟩ := sub_half hs he
          refine ⟨(size, c), Or.inr rfl, (cube_children c p).2 ⟨i, ?_⟩⟩
          rw [← hi]
          exact hp
        · exact ⟨_, Or.inl ⟨he, hh⟩, hp⟩
    · rw [mergeGen_not hm]

/-- The entries are inside the cube. -/
lemma mergeGen_inside (cond : ℕ → Set (Fin 3 → K) → Prop) {size : K} (hs : 0 < size) (n : ℕ) (c : Fin 3 → K) (t : Oct) :
    ∀ e ∈ mergeGen cond n size c t, ∀ p, InsideVoxel e.1 e.2 p → InsideVoxel size c p := by
  induction n generalizing size c t with
  | zero =>
    rintro e he p hp
    rw [mergeGen, Set.mem_singleton_iff] at he
    rw [he] at hp
    exact hp
  | succ n ih =>
    have hsub : ∀ e ∈ subVoxels cond n size c t, ∀ p, InsideVoxel e.1 e.2 p → InsideVoxel size c p := by
      rintro e ⟨i, _, he⟩ p hp a
      have := ih (by linarith) _ _ e he p hp a
      unfold childCentre at this
      rcases octBit_cases i a with hb | hb <;> rw [hb] at this <;> push_cast at this <;> constructor <;> linarith [this.1, this.2]
    intro e he
    by_cases hm : Merges cond n size c t
    · rw [mergeGen_merges hm] at he
      rcases he with he | he
      · exact hsub e he.1
      · rw [Set.mem_singleton_iff] at he
        rw [he]
        exact fun p hp => hp
    · rw [mergeGen_not hm] at he
      exact hsub e he

/-- If the cube itself is an entry there is no other one. -/
lemma mergeGen_whole (cond : ℕ → Set (Fin 3 → K) → Prop) {size : K} (hs : 0 < size) (n : ℕ) (c : Fin 3 → K) (t : Oct)
    (h : (size, c) ∈ mergeGen cond n size c t) : mergeGen cond n size c t = {(size, c)} := by
  induction n generalizing size c t with
  | zero => rfl
  | succ n ih =>
    by_cases hm : Merges cond n size c t
    · rw [mergeGen_merges hm]
      have hall := (merges_iff hs).1 hm.1
      have hempty : {e | e ∈ subVoxels cond n size c t ∧ e.1 ≠ size / 2} = ∅ := by
        rw [Set.eq_empty_iff_forall_notMem]
        rintro e ⟨⟨i, hi, he⟩, hne⟩
        obtain ⟨j, hj, _, hje⟩ := sub_half hs (hall i)
        have hji := childCentre_inj (by linarith : (0 : K) < size / 2) c hj
        rw [← hji] at hje
        rw [ih (by linarith) _ _ hje, Set.mem_singleton_iff] at he
        rw [he] at hne
        exact hne rfl
      rw [hempty, Set.empty_union]
    · rw [mergeGen_not hm] at h
      obtain ⟨i, _, hi⟩ := h
      obtain ⟨k, _, h1, _⟩ := mergeGen_sizes cond (by linarith : 0 < size / 2) n _ _ _ hi
      have h3 : (1 : K) ≤ 2 ^ k := one_le_pow₀ one_le_two
      dsimp only at h1
      nlinarith

lemma children_disjoint {size : K} (hs : 0 < size) (c : Fin 3 → K) {i j : Fin 8} (hij : i ≠ j) (p : Fin 3 → K)
    (h1 : InsideVoxel (size / 2) (childCentre (size / 2) c i) p) (h2 : InsideVoxel (size / 2) (childCentre (size / 2) c j) p) : False := by
  apply hij
  apply octBit_ext
  intro a
  have b1 := h1 a
  have b2 := h2 a
  unfold childCentre at b1 b2
  rcases octBit_cases i a with hi | hi <;> rcases octBit_cases j a with hj | hj <;> rw [hi] at b1 <;> rw [hj] at b2 <;> rw [hi, hj] <;>
    push_cast at b1 b2 <;> exfalso <;> linarith [b1.1, b1.2, b2.1, b2.2]

/-- Different entries do not overlap. -/
lemma mergeGen_disjoint (cond : ℕ → Set (Fin 3 → K) → Prop) {size : K} (hs : 0 < size) (n : ℕ) (c : Fin 3 → K) (t : Oct) :
    ∀ e ∈ mergeGen cond n size c t, ∀ e' ∈ mergeGen cond n size c t, ∀ p, InsideVoxel e.1 e.2 p → InsideVoxel e'.1 e'.2 p → e = e' := by
  induction n generalizing size c t with
  | zero =>
    rintro e he e' he' p _ _
    rw [mergeGen, Set.mem_singleton_iff] at he he'
    rw [he, he']
  | succ n ih =>
    intro e he e' he' p hp hp'
    by_cases hm : Merges cond n size c t
    · have hwhole : (size, c) ∈ mergeGen cond (n + 1) size c t := by rw [mergeGen_merges hm]; exact Or.inr rfl
      rw [mergeGen_whole cond hs _ _ _ hwhole, Set.mem_singleton_iff] at he he'
      rw [he, he']
    · rw [mergeGen_not hm] at he he'
      obtain ⟨i, _, hi⟩ := he
      obtain ⟨j, _, hj⟩ := he'
      by_cases hij : i = j
      · subst hij
        exact ih (by linarith) _ _ e hi e' hj p hp hp'
      · exact (children_disjoint hs c hij p (mergeGen_inside cond (by linarith) _ _ _ e hi p hp)
          (mergeGen_inside cond (by linarith) _ _ _ e' hj p hp')).elim

/-- No eight sub-voxels of a voxel of the octree are left. -/
lemma mergeGen_maximal {size : K} (hs : 0 < size) (n : ℕ) (c : Fin 3 → K) (t : Oct) (path : List (Fin 8)) (hp : path.length < n) :
    ¬ ∀ i : Fin 8, (size / 2 ^ (path.length + 1), pathCentre size c (path ++ [i])) ∈ mergeGen (fun _ _ => True) n size c t := by
  induction path generalizing n size c t with
  | nil =>
    intro h
    obtain ⟨m, rfl⟩ : ∃ m, n = m + 1 := ⟨n - 1, by simp at hp; omega⟩
    have h' : ∀ i : Fin 8, (size / 2, childCentre (size / 2) c i) ∈ mergeGen (fun _ _ => True) (m + 1) size c t := by
      intro i
      have := h i
      simpa [pathCentre] using this
    by_cases hm : Merges (fun _ _ => True) m size c t
    · have hwhole : (size, c) ∈ mergeGen (fun _ _ => True) (m + 1) size c t := by rw [mergeGen_merges hm]; exact Or.inr rfl
      have h0 := h' 0
      rw [mergeGen_whole _ hs _ _ _ hwhole, Set.mem_singleton_iff, Prod.mk.injEq] at h0
      linarith [h0.1]
    · rw [mergeGen_not hm] at h'
      exact hm ⟨(merges_iff hs).2 h', trivial⟩
  | cons j path ih =>
    intro h
    obtain ⟨m, rfl⟩ : ∃ m, n = m + 1 := ⟨n - 1, by simp at hp; omega⟩
    have hsz : size / 2 ^ ((j :: path).length + 1) = size / 2 / 2 ^ (path.length + 1) := by
      rw [List.length_cons, pow_succ _ (path.length + 1), div_div, mul_comm]
    by_cases hm : Merges (fun _ _ => True) m size c t
    · have hwhole : (size, c) ∈ mergeGen (fun _ _ => True) (m + 1) size c t := by rw [mergeGen_merges hm]; exact Or.inr rfl
      have h0 := h 0
      rw [mergeGen_whole _ hs _ _ _ hwhole, Set.mem_singleton_iff, Prod.mk.injEq] at h0
      have h1 : (1 : K) < 2 ^ ((j :: path).length + 1) := one_lt_pow₀ one_lt_two (by omega)
      have h2 := h0.1
      rw [div_eq_iff (by positivity)] at h2
      nlinarith
    · rw [mergeGen_not hm] at h
      refine ih (by linarith : 0 < size / 2) m (childCentre (size / 2) c j) (t.child j) (by simpa using hp) fun i => ?_
      obtain ⟨i', hi', he⟩ := h i
      have hin := mergeGen_inside _ (by linarith : 0 < size / 2) _ _ _ _ he (pathCentre size c (j :: path ++ [i])) (fun a => by
        have : 0 < size / 2 ^ ((j :: path).length + 1) := by positivity
        dsimp only
        constructor <;> linarith)
      have hb : InsideVoxel (size / 2) (childCentre (size / 2) c j) (pathCentre size c (j :: path ++ [i])) := by
        intro a
        have := pathCentre_bound (size / 2) (by linarith) (childCentre (size / 2) c j) (path ++ [i]) a
        rw [abs_lt] at this
        show _ < pathCentre (size / 2) (childCentre (size / 2) c j) (path ++ [i]) a ∧ pathCentre (size / 2) (childCentre (size / 2) c j) (path ++ [i]) a < _
        constructor <;> linarith [this.1, this.2]
      have hij : i' = j := by
        by_contra hne
        exact children_disjoint hs c hne _ hin hb
      subst hij
      rw [hsz] at he
      exact he

end Voxel

/-- **C141 (merged voxels).** For any octree the voxels of `to_non_homogeneous_point_based_voxelizations` cover exactly the points that
the voxels of the octree cover, no two of them overlap, and their sizes are the voxel size times a power of two. -/
theorem C141_same_points (v : OctVox K) (hv : GoodOctree v) :
    (∀ p, Covered v.merged p ↔ ∃ q ∈ v.centres, InVoxel v.size q p) ∧
    (∀ e ∈ v.merged, ∀ e' ∈ v.merged, (∃ p, InsideVoxel e.1 e.2 p ∧ InsideVoxel e'.1 e'.2 p) → e = e') ∧
    (∀ e ∈ v.merged, ∃ k ≤ v.depth, e.1 = v.size * 2 ^ k) := by
  have hs : 0 < v.size * 2 ^ v.depth := mul_pos hv.size (pow_pos two_pos _)
  have hdiv : v.size * 2 ^ v.depth / 2 ^ v.depth = v.size := mul_div_cancel_right₀ _ (pow_ne_zero _ two_ne_zero)
  unfold OctVox.merged
  rw [merged_eq]
  refine ⟨fun p => ?_, ?_, ?_⟩
  · rw [mergeGen_covered _ hs, hdiv]
    rfl
  · rintro e he e' he' ⟨p, h1, h2⟩
    exact mergeGen_disjoint _ hs _ _ _ e he e' he' p h1 h2
  · intro e he
    obtain ⟨k, hk, h1, _⟩ := mergeGen_sizes _ hs _ _ _ e he
    refine ⟨v.depth - k, Nat.sub_le _ _, ?_⟩
    have h2 : (2 : K) ^ v.depth = 2 ^ (v.depth - k) * 2 ^ k := by rw [← pow_add, Nat.sub_add_cancel hk]
    rw [h2, ← mul_assoc] at h1
    exact mul_right_cancel₀ (pow_ne_zero _ two_ne_zero) h1

/-- **C141 (nothing is left to merge).** The eight sub-voxels of a voxel of any level of the octree are never all in the result. -/
theorem C141_all_merged (v : OctVox K) (hv : GoodOctree v) (path : List (Fin 8)) (hp : path.length < v.depth) :
    ¬ ∀ i : Fin 8, (v.size * 2 ^ v.depth / 2 ^ (path.length + 1), pathCentre (v.size * 2 ^ v.depth) v.rootC (path ++ [i])) ∈ v.merged := by
  have hs : 0 < v.size * 2 ^ v.depth := mul_pos hv.size (pow_pos two_pos _)
  unfold OctVox.merged
  rw [merged_eq]
  exact mergeGen_maximal hs _ _ _ path hp

/-- A good octree with one level and all its eight voxels. -/
example : GoodOctree (⟨.node fun _ => .leaf [1], fun _ => 0, 1, 1 / 2, 0⟩ : OctVox ℚ) :=
  ⟨rfl, Nat.one_pos, by norm_num, Or.inr ⟨_, rfl, fun _ => ⟨_, rfl⟩⟩⟩

/-! ## C142 -/

namespace Voxel

lemma fullCube_mono {m : Mat 3} {c : Cell 3} {r r' : ℕ} (h : r ≤ r') (hf : fullCube m c r') : fullCube m c r := by
  intro d hd
  refine hf d fun i => (hd i).trans ?_
  exact_mod_cast h

lemma fullCube_inside {m : Mat 3} {c : Cell 3} {r : ℕ} (hm : ∀ d, m.val d = true → Inside m.shape d) (hf : fullCube m c r) (i : Fin 3) :
    0 ≤ c i - r ∧ c i + r < m.shape i := by
  have h1 := hm _ (hf (fun j => c j - r) fun j => by
    have : c j - (r : ℤ) - c j = -(r : ℤ) := by ring
    rw [this, abs_neg, Nat.abs_cast]) i
  have h2 := hm _ (hf (fun j => c j + r) fun j => by
    have : c j + (r : ℤ) - c j = (r : ℤ) := by ring
    rw [this, Nat.abs_cast]) i
  exact ⟨h1.1, h2.2⟩

lemma layersFrom_spec {m : Mat 3} (hm : ∀ d, m.val d = true → Inside m.shape d) (c : Cell 3) (fuel count : ℕ)
    (h : ∀ r, r < count → fullCube m c r) (hf : ∀ r, fullCube m c r → r < fuel + count) :
    ∀ r, fullCube m c r ↔ r < layersFrom m c fuel count := by
  induction fuel generalizing count with
  | zero => exact fun r => ⟨fun hr => by have := hf r hr; simpa [layersFrom] using this, fun hr => h r hr⟩
  | succ fuel ih =>
    rw [layersFrom]
    have stop : ¬ fullCube m c count → ∀ r, fullCube m c r ↔ r < count := by
      intro hn r
      refine ⟨fun hr => ?_, h r⟩
      by_contra hge
      exact hn (fullCube_mono (not_lt.1 hge) hr)
    by_cases hin : ∀ i, 0 ≤ c i - count ∧ c i + count < m.shape i
    · rw [if_pos hin]
      by_cases hfull : fullCube m c count
      · rw [if_pos hfull]
        refine ih (count + 1) (fun r hr => ?_) fun r hr => by have := hf r hr; omega
        rcases Nat.lt_succ_iff_lt_or_eq.1 hr with h1 | rfl
        · exact h r h1
        · exact hfull
      · rw [if_neg hfull]
        exact stop hfull
    · rw [if_neg hin]
      exact stop fun hfull => hin (fullCube_inside hm hfull)

/-- The number of layers is the largest radius of a full cube around the voxel. -/
lemma layersOf_spec {m : Mat 3} (hm : ∀ d, m.val d = true → Inside m.shape d) (c : Cell 3) (hc : m.val c = true) (r : ℕ) :
    fullCube m c r ↔ r ≤ layersOf m c := by
  have h0 : ∀ r, r < 1 → fullCube m c r := by
    intro r hr d hd
    have hr : r = 0 := by omega
    subst hr
    have : d = c := by
      funext i
      have := hd i
      simp only [Nat.cast_zero, abs_nonpos_iff] at this
      omega
    rw [this]
    exact hc
  have hb : ∀ r, fullCube m c r → r < m.shape 0 + 1 := by
    intro r hr
    have := fullCube_inside hm hr 0
    omega
  have hspec := layersFrom_spec hm c (m.shape 0) 1 h0 hb
  have hpos := (hspec 0).1 (h0 0 (by omega))
  rw [hspec r]
  unfold layersOf
  rw [if_pos hc]
  omega

end Voxel

/-- **Specification.** All the voxels of the cube of the given radius (in voxels) around the voxel `q` are in the set. -/
def LayersAround (s : Set (Fin 3 → K)) (size : K) (q : Fin 3 → K) (r : ℕ) : Prop :=
  ∀ d : Fin 3 → ℤ, (∀ i, |d i| ≤ r) → (fun i => q i + d i * size) ∈ s

/-- **C142 (layers).** `layers_thickness_by_voxel_centers` has exactly one value for each voxel and no other keys; the value is the voxel
size times the largest number `n` of complete layers of voxels around the voxel. -/
theorem C142_layers (v : Vox 3 K) (h0 : 0 < v.size) :
    (∀ q, q ∈ v.centres ↔ ∃ x, (q, x) ∈ v.layerDict) ∧
    (∀ q x, (q, x) ∈ v.layerDict → ∃ n : ℕ, x = n * v.size ∧ ∀ r, LayersAround v.centres v.size q r ↔ r ≤ n) := by
  constructor
  · intro q
    constructor
    · rintro ⟨c, hc, rfl⟩
      exact ⟨_, c, hc, rfl, rfl⟩
    · rintro ⟨x, c, hc, hq, _⟩
      exact ⟨c, hc, hq⟩
  · rintro q x ⟨c, hc, hq, hx⟩
    dsimp only at hq hx
    refine ⟨layersOf v.mat c, hx, fun r => ?_⟩
    rw [← layersOf_spec v.mat.supp c hc r, hq]
    constructor
    · intro h d hd
      have hmem := h (fun i => d i - c i) hd
      obtain ⟨c', hc', he⟩ := hmem
      have : c' = d := by
        funext i
        have h1 := congrFun he i
        dsimp only at h1
        push_cast at h1
        have h2 : ((c' i : ℤ) : K) * v.size = (d i : K) * v.size := by linarith
        have h3 := mul_right_cancel₀ h0.ne' h2
        exact_mod_cast h3
      rw [← this]
      exact hc'
    · intro h d hd
      refine ⟨fun i => c i + d i, h _ fun i => ?_, funext fun i => ?_⟩
      · rw [add_sub_cancel_left]
        exact hd i
      · push_cast
        ring

namespace Voxel

lemma inner_entries (thick : (Fin 3 → K) → Prop) {size : K} (hs : 0 < size) (n : ℕ) (c : Fin 3 → K) (t : Oct) :
    ∀ e ∈ mergeGen (fun n s => n = 0 ∧ ∀ p ∈ s, thick p) n size c t,
      (e.1 * 2 ^ n = size ∧ e.2 ∈ leafCentres n size c t) ∨
      (e.1 * 2 ^ n = size * 2 ∧ ∀ i, childCentre (e.1 / 2) e.2 i ∈ leafCentres n size c t ∧ thick (childCentre (e.1 / 2) e.2 i)) := by
  induction n generalizing size c t with
  | zero =>
    intro e he
    rw [mergeGen, Set.mem_singleton_iff] at he
    rw [he]
    exact Or.inl ⟨by simp, rfl⟩
  | succ n ih =>
    intro e he
    by_cases hm : Merges (fun n s => n = 0 ∧ ∀ p ∈ s, thick p) n size c t
    · have hwhole : (size, c) ∈ mergeGen (fun n s => n = 0 ∧ ∀ p ∈ s, thick p) (n + 1) size c t := by rw [mergeGen_merges hm]; exact Or.inr rfl
      rw [mergeGen_whole _ hs _ _ _ hwhole, Set.mem_singleton_iff] at he
      rw [he]
      have hall := (merges_iff hs).1 hm.1
      obtain ⟨rfl, hthick⟩ := hm.2
      refine Or.inr ⟨by simp, fun i => ⟨?_, hthick _ (hall i)⟩⟩
      obtain ⟨j, hj, htr, _⟩ := sub_half hs (hall i)
      exact ⟨j, htr, hj⟩
    · rw [mergeGen_not hm] at he
      obtain ⟨i, hi, hei⟩ := he
      rcases ih (by linarith) _ _ e hei with ⟨h1, h2⟩ | ⟨h1, h2⟩
      · refine Or.inl ⟨by rw [pow_succ, ← mul_assoc, h1]; ring, i, hi, h2⟩
      · refine Or.inr ⟨by rw [pow_succ, ← mul_assoc, h1]; ring, fun j => ⟨⟨i, hi, (h2 j).1⟩, (h2 j).2⟩⟩

lemma inner_complete (thick : (Fin 3 → K) → Prop) {size : K} (hs : 0 < size) (path : List (Fin 8)) (c : Fin 3 → K) (t : Oct)
    (h : ∀ i : Fin 8, Oct.has (path.length + 1) t (path ++ [i]) = true ∧ thick (pathCentre size c (path ++ [i]))) :
    (size / 2 ^ path.length, pathCentre size c path) ∈ mergeGen (fun n s => n = 0 ∧ ∀ p ∈ s, thick p) (path.length + 1) size c t := by
  induction path generalizing size c t with
  | nil =>
    have hsub : ∀ i, (size / 2, childCentre (size / 2) c i) ∈ subVoxels (fun n s => n = 0 ∧ ∀ p ∈ s, thick p) 0 size c t := by
      intro i
      exact ⟨i, (h i).1, rfl⟩
    have hm : Merges (fun n s => n = 0 ∧ ∀ p ∈ s, thick p) 0 size c t := by
      refine ⟨(merges_iff hs).2 hsub, rfl, fun p hp => ?_⟩
      obtain ⟨i, rfl, _⟩ := sub_half hs hp
      exact (h i).2
    show _ ∈ mergeGen _ (0 + 1) size c t
    rw [mergeGen_merges hm]
    right
    simp [pathCentre]
  | cons j path ih =>
    have hrec := ih (by linarith : 0 < size / 2) (childCentre (size / 2) c j) (t.child j) h
    have hm : ¬ Merges (fun n s => n = 0 ∧ ∀ p ∈ s, thick p) (path.length + 1) size c t := fun hm => by
      have := hm.2.1
      omega
    show _ ∈ mergeGen _ (path.length + 1 + 1) size c t
    rw [mergeGen_not hm]
    refine ⟨j, ?_, ?_⟩
    · by_contra hn
      have h0 := (h 0).1
      change Oct.has (path.length + 1) (t.child j) (path ++ [0]) = true at h0
      rw [has_of_not_truthy _ _ (by simpa using hn)] at h0
      cases h0
    · have hsz : size / 2 ^ (j :: path).length = size / 2 / 2 ^ path.length := by
        rw [List.length_cons, pow_succ, div_div, mul_comm]
      rw [hsz]
      exact hrec

end Voxel

/-- **C142 (inner growing voxels).** For any octree, any matrix based voxelization with the same voxels and any minimal thickness, the voxels
of `get_inner_growing_voxel_centers` cover exactly the points that the voxels of the octree cover, no two of them overlap, and each is either
a voxel of the octree or a cube of twice the size made of eight voxels that all have at least the given thickness of layers around them. -/
theorem C142_inner_growing (v : OctVox K) (hv : GoodOctree v) (m : Vox 3 K) (thickness : K) :
    (∀ p, Covered (v.innerGrowingCentres m thickness) p ↔ ∃ q ∈ v.centres, InVoxel v.size q p) ∧
    (∀ e ∈ v.innerGrowingCentres m thickness, ∀ e' ∈ v.innerGrowingCentres m thickness,
      (∃ p, InsideVoxel e.1 e.2 p ∧ InsideVoxel e'.1 e'.2 p) → e = e') ∧
    (∀ e ∈ v.innerGrowingCentres m thickness, (e.1 = v.size ∧ e.2 ∈ v.centres) ∨
      (e.1 = 2 * v.size ∧ ∀ i, childCentre v.size e.2 i ∈ v.centres ∧ ∃ x, (childCentre v.size e.2 i, x) ∈ m.layerDict ∧ thickness ≤ x)) := by
  have hs : 0 < v.size * 2 ^ v.depth := mul_pos hv.size (pow_pos two_pos _)
  have hdiv : v.size * 2 ^ v.depth / 2 ^ v.depth = v.size := mul_div_cancel_right₀ _ (pow_ne_zero _ two_ne_zero)
  unfold OctVox.innerGrowingCentres
  rw [innerGrowing_eq]
  refine ⟨fun p => ?_, ?_, ?_⟩
  · rw [mergeGen_covered _ hs, hdiv]
    rfl
  · rintro e he e' he' ⟨p, h1, h2⟩
    exact mergeGen_disjoint _ hs _ _ _ e he e' he' p h1 h2
  · intro e he
    rcases inner_entries _ hs _ _ _ e he with ⟨h1, h2⟩ | ⟨h1, h2⟩
    · exact Or.inl ⟨mul_right_cancel₀ (pow_ne_zero _ two_ne_zero) h1, h2⟩
    · have h3 : e.1 = 2 * v.size := by
        have : e.1 * 2 ^ v.depth = 2 * v.size * 2 ^ v.depth := by rw [h1]; ring
        exact mul_right_cancel₀ (pow_ne_zero _ two_ne_zero) this
      have h4 : e.1 / 2 = v.size := by rw [h3]; ring
      rw [h4] at h2
      exact Or.inr ⟨h3, h2⟩

/-- **C142 (inner growing voxels are as large as possible).** A cube of the octree of twice the voxel size, whose eight voxels are in the
octree and have at least the given thickness of layers around them, is in the result. -/
theorem C142_inner_growing_complete (v : OctVox K) (hv : GoodOctree v) (m : Vox 3 K) (thickness : K) (path : List (Fin 8))
    (hp : path.length + 1 = v.depth)
    (h : ∀ i : Fin 8, pathCentre (v.size * 2 ^ v.depth) v.rootC (path ++ [i]) ∈ v.centres ∧
      ∃ x, (pathCentre (v.size * 2 ^ v.depth) v.rootC (path ++ [i]), x) ∈ m.layerDict ∧ thickness ≤ x) :
    (2 * v.size, pathCentre (v.size * 2 ^ v.depth) v.rootC path) ∈ v.innerGrowingCentres m thickness := by
  have hs : 0 < v.size * 2 ^ v.depth := mul_pos hv.size (pow_pos two_pos _)
  have hhas : ∀ i : Fin 8, Oct.has (path.length + 1) v.octree (path ++ [i]) = true := by
    intro i
    have h1 := (h i).1
    unfold OctVox.centres at h1
    rw [leafCentres_has _ _ _ _ (Or.inl hv.depth)] at h1
    obtain ⟨p, hp1, hp2⟩ := h1
    have : path ++ [i] = p := by
      refine pathCentre_inj _ hs v.rootC _ _ ?_ hp2
      rw [has_length _ _ _ hp1, List.length_append]
      simpa using hp
    rw [this, hp]
    exact hp1
  have key := inner_complete (fun p => ∃ x, (p, x) ∈ m.layerDict ∧ thickness ≤ x) hs path v.rootC v.octree fun i => ⟨hhas i, (h i).2⟩
  unfold OctVox.innerGrowingCentres
  rw [innerGrowing_eq]
  have e : v.size * 2 ^ v.depth / 2 ^ path.length = 2 * v.size := by
    rw [← hp, pow_succ, ← mul_assoc, mul_right_comm, mul_div_cancel_right₀ _ (pow_ne_zero _ two_ne_zero), mul_comm]
  rw [e, hp] at key
  exact key

/-- The eight voxels of one level are in a matrix, and in the octree, so that they are merged when no thickness is asked for. -/
example : (2 * (1 / 2), fun _ => 0) ∈ (⟨.node fun _ => .leaf [1], fun _ => 0, 1, 1 / 2, 0⟩ : OctVox ℚ).innerGrowingCentres
    ⟨mkMat (fun _ => 2) fun _ => true, fun _ => -1 / 4, 1 / 2⟩ 0 := by
  have h := C142_inner_growing_complete (K := ℚ) ⟨.node fun _ => .leaf [1], fun _ => 0, 1, 1 / 2, 0⟩
    ⟨rfl, Nat.one_pos, by norm_num, Or.inr ⟨_, rfl, fun _ => ⟨_, rfl⟩⟩⟩ ⟨mkMat (fun _ => 2) fun _ => true, fun _ => -1 / 4, 1 / 2⟩ 0 [] rfl
    (fun i => by
      refine ⟨⟨i, rfl, rfl⟩, _, ⟨fun a => octBit i a, ?_, ?_, rfl⟩, ?_⟩
      · revert i
        decide +kernel
      · funext a
        show (0 : ℚ) + ((octBit i a : ℚ) - 1 / 2) * (1 / 2 * 2 ^ 1 / 2) = -1 / 4 + ((octBit i a : ℤ) : ℚ) * (1 / 2)
        push_cast
        ring
      · positivity)
  exact h

/-- A voxel with one layer around it: the centre of a cube of 27 voxels. -/
example : LayersAround ({q | ∀ i, ∃ k : ℤ, |k| ≤ 1 ∧ q i = k} : Set (Fin 3 → ℚ)) 1 (fun _ => 0) 1 := by
  intro d hd i
  exact ⟨d i, hd i, by simp⟩

end Volmdlr
