import Verif.Voxel.FilledProps
import Verif.Voxel.TriangleProps
import Verif.Voxel.AddressProps

/-!
# C134, C135, C136: voxelization of triangles
-/

namespace Volmdlr
open Voxel

variable {K : Type} [Field K] [LinearOrder K] [IsStrictOrderedRing K] [FloorRing K]

/-! ## Specification -/

/-- **Specification.** The centre of the voxel of numbers `k` of the grid of voxels of the given size. -/
def voxelCentre (size : K) (k : Fin 3 → ℤ) : Fin 3 → K := fun i => ((k i : K) + 1 / 2) * size

/-- **Specification.** The closed voxel of numbers `k` shares a point with the triangle. -/
def MeetsVoxel (size : K) (t : Tri3 K) (k : Fin 3 → ℤ) : Prop := TriMeetsBox t (voxelCentre size k) fun _ => size / 2

/-- **Specification.** The three vertices are different. -/
def Proper (t : Tri3 K) : Prop := t.1 ≠ t.2.1 ∧ t.1 ≠ t.2.2 ∧ t.2.1 ≠ t.2.2

instance (t : Tri3 K) : Decidable (Proper t) := by unfold Proper; infer_instance

/-- **Specification.** The triangle is in a plane that separates voxels. -/
def InGridPlane (size : K) (t : Tri3 K) : Prop := ∃ (a : Fin 3) (n : ℤ), t.1 a = n * size ∧ t.2.1 a = n * size ∧ t.2.2 a = n * size

/-- **Specification.** The closed voxel of numbers `k` shares a point with the bounding box of the triangle. -/
def NearVoxel (size : K) (t : Tri3 K) (k : Fin 3 → ℤ) : Prop :=
  ∀ i, (k i : K) * size ≤ max (max (t.1 i) (t.2.1 i)) (t.2.2 i) ∧ min (min (t.1 i) (t.2.1 i)) (t.2.2 i) ≤ ((k i : K) + 1) * size

namespace Voxel

lemma not_hasEqualPoints (t : Tri3 K) : ¬ hasEqualPoints t ↔ Proper t := by
  unfold hasEqualPoints Proper
  have e : ∀ p q : Fin 3 → K, (p 0 = q 0 ∧ p 1 = q 1 ∧ p 2 = q 2) ↔ p = q := by
    intro p q
    constructor
    · rintro ⟨h0, h1, h2⟩
      funext i
      fin_cases i
      · exact h0
      · exact h1
      · exact h2
    · rintro rfl; exact ⟨rfl, rfl, rfl⟩
  rw [e, e, e]
  tauto

lemma isInterface_iff {size : K} (hs : 0 < size) (t : Tri3 K) (a : Fin 3) :
    isInterface size t a ↔ ∃ n : ℤ, t.1 a = n * size ∧ t.2.1 a = n * size ∧ t.2.2 a = n * size := by
  unfold isInterface
  constructor
  · rintro ⟨⟨h1, h2⟩, h3⟩
    have : t.1 a = (cInt (t.1 a / size) : K) * size := by rw [h3, div_mul_cancel₀ _ hs.ne']
    exact ⟨_, this, by rw [← h1]; exact this, by rw [← h2, ← h1]; exact this⟩
  · rintro ⟨n, h1, h2, h3⟩
    refine ⟨⟨by rw [h1, h2], by rw [h2, h3]⟩, ?_⟩
    rw [h1, mul_div_cancel_right₀ _ hs.ne', cInt_intCast]

/-- What the loop over the triangles marks for one triangle. -/
def Marks (size : K) (t : Tri3 K) (k : Fin 3 → ℤ) : Prop :=
  Proper t ∧ ((InGridPlane size t ∧ MeetsVoxel size t k) ∨
    (¬ InGridPlane size t ∧ NearVoxel size t k ∧ triangleIntersectsVoxel t (voxelCentre size k) (fun _ => 1 / 2 * size) = true))

lemma voxel_interval {size : K} (k : ℤ) (x : K) :
    (((k : K) + 1 / 2) * size - size / 2 ≤ x ∧ x ≤ ((k : K) + 1 / 2) * size + size / 2) ↔ k * size ≤ x ∧ x ≤ (k + 1) * size := by
  rw [show ((k : K) + 1 / 2) * size - size / 2 = k * size by ring, show ((k : K) + 1 / 2) * size + size / 2 = (k + 1) * size by ring]

lemma meets_near {size : K} {t : Tri3 K} {k : Fin 3 → ℤ} (h : MeetsVoxel size t k) : NearVoxel size t k := by
  obtain ⟨p, ⟨a, b, c, ha, hb, hc, hsum, hp⟩, hin⟩ := h
  intro i
  have h1 := (voxel_interval (k i) (p i)).1 (hin i)
  have h2 := mean_bounds ha hb hc hsum (x := t.1 i) (y := t.2.1 i) (z := t.2.2 i)
  rw [← hp i] at h2
  exact ⟨h1.1.trans h2.1, h2.2.trans h1.2⟩

/-! ## The matrix and its grid -/

/-- The matrix of shape `S` whose first voxel has the numbers `g - 1` has room for the voxels around the triangle. -/
def Room (size : K) (g : Fin 3 → ℤ) (S : Fin 3 → ℕ) (t : Tri3 K) : Prop :=
  ∀ i, g i ≤ ⌊triMin t i / size⌋ ∧ ⌊triMax t i / size⌋ - g i + 3 ≤ S i

/-- The centre of the first voxel. -/
def orgOf (size : K) (g : Fin 3 → ℤ) : Fin 3 → K := fun i => ((g i : K) - 1 / 2) * size

lemma near_bounds {size : K} (hs : 0 < size) {t : Tri3 K} {k : Fin 3 → ℤ} (h : NearVoxel size t k) (i : Fin 3) :
    ⌈triMin t i / size⌉ - 1 ≤ k i ∧ k i ≤ ⌊triMax t i / size⌋ :=
  ⟨range_lo hs (h i).2 le_rfl, range_hi hs (h i).1 le_rfl⟩

/-! ## Triangles in a plane of the grid -/

/-- The triangle seen along an axis. -/
def shadow (u v : Fin 3) (t : Tri3 K) : Tri2 K := ((t.1 u, t.1 v), (t.2.1 u, t.2.1 v), (t.2.2 u, t.2.2 v))

lemma shadow_proper {a u v : Fin 3} (hall : ∀ k, k = a ∨ k = u ∨ k = v) {t : Tri3 K} (ht : Proper t)
    (h1 : t.1 a = t.2.1 a) (h2 : t.2.1 a = t.2.2 a) : Proper2 (shadow u v t) := by
  have e : ∀ p q : Fin 3 → K, p a = q a → (p u, p v) = (q u, q v) → p = q := by
    intro p q ha h
    funext k
    rcases hall k with rfl | rfl | rfl
    · exact ha
    · exact (Prod.ext_iff.1 h).1
    · exact (Prod.ext_iff.1 h).2
  exact ⟨fun h => ht.1 (e _ _ h1 h), fun h => ht.2.2 (e _ _ h2 h), fun h => ht.2.1 (e _ _ (h1.trans h2) h.symm)⟩

lemma meets_shadow {a u v : Fin 3} (hall : ∀ k, k = a ∨ k = u ∨ k = v) {size : K} (hs : 0 < size) {t : Tri3 K} {n : ℤ}
    (h1 : t.1 a = n * size) (h2 : t.2.1 a = n * size) (h3 : t.2.2 a = n * size) (k : Fin 3 → ℤ) :
    MeetsVoxel size t k ↔ (k a = n - 1 ∨ k a = n) ∧ TriMeetsPixel size (shadow u v t) (k u) (k v) := by
  have plane : (((k a : K)) * size ≤ n * size ∧ (n : K) * size ≤ (k a + 1) * size) ↔ (k a = n - 1 ∨ k a = n) := by
    rw [mul_le_mul_iff_of_pos_right hs, mul_le_mul_iff_of_pos_right hs]
    constructor
    · rintro ⟨h4, h5⟩
      have h4 : k a ≤ n := by exact_mod_cast h4
      have h5 : n ≤ k a + 1 := by exact_mod_cast h5
      omega
    · intro h
      have h4 : k a ≤ n := by omega
      have h5 : n ≤ k a + 1 := by omega
      exact ⟨by exact_mod_cast h4, by exact_mod_cast h5⟩
  constructor
  · rintro ⟨p, ⟨x, y, z, hx, hy, hz, hsum, hp⟩, hin⟩
    have ha : p a = n * size := by rw [hp, h1, h2, h3]; linear_combination (n * size) * hsum
    refine ⟨plane.1 ?_, (p u, p v), ⟨x, y, z, hx, hy, hz, hsum, Prod.ext (hp u) (hp v)⟩, (voxel_interval _ _).1 (hin u), (voxel_interval _ _).1 (hin v)⟩
    have := (voxel_interval _ _).1 (hin a)
    rwa [ha] at this
  · rintro ⟨hk, q, ⟨x, y, z, hx, hy, hz, hsum, hq⟩, hu, hv⟩
    refine ⟨fun i => x * t.1 i + y * t.2.1 i + z * t.2.2 i, ⟨x, y, z, hx, hy, hz, hsum, fun i => rfl⟩, fun i => (voxel_interval _ _).2 ?_⟩
    dsimp only
    rcases hall i with rfl | rfl | rfl
    · have e : x * t.1 i + y * t.2.1 i + z * t.2.2 i = n * size := by rw [h1, h2, h3]; linear_combination (n * size) * hsum
      rw [e]; exact plane.2 hk
    · have e : q.1 = x * t.1 i + y * t.2.1 i + z * t.2.2 i := by rw [hq]; rfl
      rw [← e]; exact hu
    · have e : q.2 = x * t.1 i + y * t.2.1 i + z * t.2.2 i := by rw [hq]; rfl
      rw [← e]; exact hv

lemma interface_spec {a u v : Fin 3} (hall : ∀ k, k = a ∨ k = u ∨ k = v) (hua : u ≠ a) (hva : v ≠ a) (huv : v ≠ u) {size : K} (hs : 0 < size)
    {t : Tri3 K} (ht : Proper t) {n : ℤ} (h1 : t.1 a = n * size) (h2 : t.2.1 a = n * size) (h3 : t.2.2 a = n * size) {g : Fin 3 → ℤ}
    {S : Fin 3 → ℕ} (hroom : Room size g S t) :
    ∃ fuel, ∀ fuel', fuel ≤ fuel' → ∀ m : Mat 3, m.shape = S →
      ∃ m', interfaceTriangle fuel' a u v size (orgOf size g) m t = .ok m' ∧ m'.shape = S ∧
        ∀ c, m'.val c = true ↔ m.val c = true ∨ MeetsVoxel size t (fun i => c i + g i - 1) := by
  have hprop := shadow_proper hall ht (h1.trans h2.symm) (h2.trans h3.symm)
  obtain ⟨i0, j0, i1, j1, hmin, hmax, hi, hj, hbnd⟩ := extremes hprop hs
  obtain ⟨fuel, pm, hpm, hpv⟩ := filled_spec hprop hs hi hj hbnd
  refine ⟨fuel, fun fuel' hle m hm => ?_⟩
  -- dimensions and indices
  have hdim : ∀ x y : ℤ, cInt (round (((((y : K) + 1 / 2) * size - ((x : K) + 1 / 2) * size) / size + 1)) : K) = y - x + 1 := by
    intro x y
    have : (((y : K) + 1 / 2) * size - ((x : K) + 1 / 2) * size) / size + 1 = ((y - x + 1 : ℤ) : K) := by
      push_cast; field_simp; ring
    rw [this, round_intCast, cInt_intCast]
  have hidx : ∀ (x d : ℤ) (k : Fin 3), cInt ((((x : K) + 1 / 2) * size + d * size - orgOf size g k) / size) = x + d + 1 - g k := by
    intro x d k
    have : (((x : K) + 1 / 2) * size + d * size - orgOf size g k) / size = ((x + d + 1 - g k : ℤ) : K) := by
      unfold orgOf; push_cast; field_simp; ring
    rw [this, cInt_intCast]
  have hn1 : cInt ((t.1 a - orgOf size g a - size / 2) / size) = n - g a := by
    have : (t.1 a - orgOf size g a - size / 2) / size = ((n - g a : ℤ) : K) := by
      rw [h1]; unfold orgOf; push_cast; field_simp; ring
    rw [this, cInt_intCast]
  have hn2 : cInt ((t.1 a - orgOf size g a + size / 2) / size) = n - g a + 1 := by
    have : (t.1 a - orgOf size g a + size / 2) / size = ((n - g a + 1 : ℤ) : K) := by
      rw [h1]; unfold orgOf; push_cast; field_simp; ring
    rw [this, cInt_intCast]
  -- the loop
  obtain ⟨m', hm', hs', hv'⟩ := foldlM_marks (writeBoth a u v size (orgOf size g) (pixelCentre size i0 j0) (n - g a) (n - g a + 1) pm)
    (fun d c => TriMeetsPixel size (shadow u v t) (i0 + d.1) (j0 + d.2) ∧
      (c = cellOn a u (n - g a) (i0 + d.1 + 1 - g u) (j0 + d.2 + 1 - g v) ∨ c = cellOn a u (n - g a + 1) (i0 + d.1 + 1 - g u) (j0 + d.2 + 1 - g v)))
    S ((cRange 0 (i1 - i0 + 1)).flatMap fun dx : ℤ => (cRange 0 (j1 - j0 + 1)).map fun dy : ℤ => (dx, dy)) (by
      rintro ⟨x, y⟩ hd m hm
      simp only [List.mem_flatMap, List.mem_map, mem_cRange, Prod.mk.injEq] at hd
      obtain ⟨x', hx, y', hy, rfl, rfl⟩ := hd
      have hval := hpv x' y' hx.1 (by omega) hy.1 (by omega)
      by_cases hmeet : TriMeetsPixel size (shadow u v t) (i0 + x') (j0 + y')
      · -- the two cells are in the matrix
        have inside : ∀ w, w = n - g a ∨ w = n - g a + 1 → Inside S (cellOn a u w (i0 + x' + 1 - g u) (j0 + y' + 1 - g v)) := by
          intro w hw
          have hnear : ∀ ka, (ka = n - 1 ∨ ka = n) → NearVoxel size t (fun k => if k = a then ka else if k = u then i0 + x' else j0 + y') := by
            intro ka hka
            apply meets_near
            rw [meets_shadow hall hs h1 h2 h3]
            simp only [if_true, hua, hva, huv, if_false]
            exact ⟨hka, hmeet⟩
          have hb1 := near_bounds hs (hnear (w + g a - 1) (by omega))
          intro k
          have hr := hroom k
          have := hb1 k
          have hfc := Int.floor_le_ceil (triMin t k / size)
          unfold cellOn
          rcases hall k with rfl | rfl | rfl
          · simp only [if_true] at this ⊢
            omega
          · simp only [if_true, hua, if_false] at this ⊢
            omega
          · simp only [hva, huv, if_false] at this ⊢
            omega
        obtain ⟨m1, w1, s1, v1⟩ := writeCell_spec m _ (by rw [hm]; exact inside _ (Or.inl rfl))
        obtain ⟨m2, w2, s2, v2⟩ := writeCell_spec m1 _ (by rw [s1, hm]; exact inside _ (Or.inr rfl))
        refine ⟨m2, ?_, s2.trans (s1.trans hm), fun c => ?_⟩
        · unfold writeBoth
          dsimp only
          rw [if_pos (hval.2 hmeet)]
          unfold pixelCentre
          dsimp only
          rw [hidx, hidx, w1]
          exact w2
        · rw [v2, v1]
          simp only [hmeet, true_and]
          tauto
      · refine ⟨m, ?_, hm, fun c => ?_⟩
        · unfold writeBoth
          dsimp only
          rw [if_neg (fun h => hmeet (hval.1 h))]
        · simp only [hmeet, false_and, or_false]) m hm
  refine ⟨m', ?_, hs', fun c => ?_⟩
  · unfold interfaceTriangle
    dsimp only
    unfold shadow at hmin hmax hpm
    rw [hmin, hmax]
    dsimp only
    have hpm' := hpm fuel' hle
    unfold pixelCentre at hpm' hm' ⊢
    dsimp only at hpm' hm' ⊢
    rw [hdim, hdim, hpm']
    dsimp only
    rw [hn1, hn2]
    exact hm'
  · rw [hv', meets_shadow hall hs h1 h2 h3]
    refine or_congr Iff.rfl ?_
    simp only [List.mem_flatMap, List.mem_map, mem_cRange, Prod.exists, Prod.mk.injEq]
    constructor
    · rintro ⟨x, y, -, hmeet, hc⟩
      have hca : c a = n - g a ∨ c a = n - g a + 1 := by
        rcases hc with rfl | rfl
        · left; simp [cellOn]
        · right; simp [cellOn]
      have hcu : c u = i0 + x + 1 - g u := by rcases hc with rfl | rfl <;> simp [cellOn, hua]
      have hcv : c v = j0 + y + 1 - g v := by rcases hc with rfl | rfl <;> simp [cellOn, hva, huv]
      refine ⟨by omega, ?_⟩
      rw [hcu, hcv, show i0 + x + 1 - g u + g u - 1 = i0 + x by ring, show j0 + y + 1 - g v + g v - 1 = j0 + y by ring]
      exact hmeet
    · rintro ⟨hk, hmeet⟩
      have hb := hbnd _ _ hmeet
      refine ⟨c u + g u - 1 - i0, c v + g v - 1 - j0, ⟨_, ⟨by omega, by omega⟩, _, ⟨by omega, by omega⟩, rfl, rfl⟩, ?_, ?_⟩
      · rw [add_sub_cancel, add_sub_cancel]; exact hmeet
      · have hcell : ∀ w, c a = w → c = cellOn a u w (i0 + (c u + g u - 1 - i0) + 1 - g u) (j0 + (c v + g v - 1 - j0) + 1 - g v) := by
          intro w hw
          funext k
          unfold cellOn
          rcases hall k with rfl | rfl | rfl
          · rw [if_pos rfl]; exact hw
          · rw [if_neg hua, if_pos rfl]; ring
          · rw [if_neg hva, if_neg huv]; ring
        rcases hk with h | h
        · exact Or.inl (hcell _ (by omega))
        · exact Or.inr (hcell _ (by omega))

/-! ## Other triangles -/

lemma mem_aabb (lo hi : Fin 3 → K) (size : K) (p : Fin 3 → K) :
    p ∈ aabbIntersectingBoxes lo hi size ↔ ∃ k : Fin 3 → ℤ, p = voxelCentre size k ∧
      ∀ i, cInt (lo i / size - 1) ≤ k i ∧ k i < cInt (hi i / size + 1) := by
  unfold aabbIntersectingBoxes
  simp only [List.mem_flatMap, List.mem_map, mem_cRange]
  constructor
  · rintro ⟨x, hx, y, hy, z, hz, rfl⟩
    refine ⟨![x, y, z], ?_, ?_⟩
    · funext i; fin_cases i <;> simp [voxelCentre]
    · intro i
      fin_cases i
      · exact hx
      · exact hy
      · exact hz
  · rintro ⟨k, rfl, hk⟩
    refine ⟨k 0, hk 0, k 1, hk 1, k 2, hk 2, ?_⟩
    funext i; fin_cases i <;> simp [voxelCentre]

lemma cInt_sub_one_ge (x : K) : ⌊x⌋ - 1 ≤ cInt (x - 1) := by
  have := floor_le_cInt (x - 1)
  rwa [Int.floor_sub_one] at this

lemma cInt_sub_one_le (x : K) : cInt (x - 1) ≤ ⌈x⌉ - 1 := by
  have := cInt_le_ceil (x - 1)
  rwa [Int.ceil_sub_one] at this

lemma cInt_add_one_ge (x : K) : ⌊x⌋ + 1 ≤ cInt (x + 1) := by
  have := floor_le_cInt (x + 1)
  rwa [Int.floor_add_one] at this

lemma cInt_add_one_le (x : K) : cInt (x + 1) ≤ ⌊x⌋ + 2 := by
  have h1 := cInt_le_ceil (x + 1)
  rw [Int.ceil_add_one] at h1
  have := Int.ceil_le_floor_add_one x
  omega

lemma voxelCentre_inj {size : K} (hs : 0 < size) {k l : Fin 3 → ℤ} (h : voxelCentre size k = voxelCentre size l) : k = l := by
  funext i
  have := mul_right_cancel₀ hs.ne' (congrFun h i)
  have : (k i : K) = l i := by linarith
  exact_mod_cast this

lemma chain3 {A B C : Prop} [Decidable A] [Decidable B] [Decidable C] {x : Bool}
    (h : (if A then false else if B then false else if C then false else x) = true) : ¬ A ∧ ¬ B ∧ ¬ C := by
  by_cases hA : A
  · rw [if_pos hA] at h; cases h
  · by_cases hB : B
    · rw [if_neg hA, if_pos hB] at h; cases h
    · by_cases hC : C
      · rw [if_neg hA, if_neg hB, if_pos hC] at h; cases h
      · exact ⟨hA, hB, hC⟩

/-- The test finds only triangles whose bounding box meets the voxel. -/
lemma intersects_near {t : Tri3 K} {c : Fin 3 → K} {h : K} (htest : triangleIntersectsVoxel t c (fun _ => h) = true) (i : Fin 3) :
    c i - h ≤ max (max (t.1 i) (t.2.1 i)) (t.2.2 i) ∧ min (min (t.1 i) (t.2.1 i)) (t.2.2 i) ≤ c i + h := by
  have key : ∀ x y z w : K, ¬ (max (max (x - w) (y - w)) (z - w) < -h ∨ min (min (x - w) (y - w)) (z - w) > h) →
      w - h ≤ max (max x y) z ∧ min (min x y) z ≤ w + h := by
    intro x y z w hn
    constructor
    · by_contra hlt
      rw [not_le] at hlt
      simp only [max_lt_iff] at hlt
      refine hn (Or.inl ?_)
      simp only [max_lt_iff]
      refine ⟨⟨?_, ?_⟩, ?_⟩ <;> linarith [hlt.1.1, hlt.1.2, hlt.2]
    · by_contra hlt
      rw [not_le] at hlt
      simp only [lt_min_iff] at hlt
      refine hn (Or.inr ?_)
      simp only [gt_iff_lt, lt_min_iff]
      refine ⟨⟨?_, ?_⟩, ?_⟩ <;> linarith [hlt.1.1, hlt.1.2, hlt.2]
  unfold triangleIntersectsVoxel at htest
  dsimp only at htest
  obtain ⟨h0, h1, h2⟩ := chain3 htest
  have hi : i = 0 ∨ i = 1 ∨ i = 2 := by fin_cases i <;> simp
  rcases hi with rfl | rfl | rfl
  · exact key _ _ _ _ h0
  · exact key _ _ _ _ h1
  · exact key _ _ _ _ h2

lemma general_spec {size : K} (hs : 0 < size) {t : Tri3 K} {g : Fin 3 → ℤ} {S : Fin 3 → ℕ} (hroom : Room size g S t) (m : Mat 3) (hm : m.shape = S) :
    ∃ m', (aabbIntersectingBoxes (triMin t) (triMax t) size).foldlM (testVoxel size (orgOf size g) t) m = .ok m' ∧ m'.shape = S ∧
      ∀ c, m'.val c = true ↔ m.val c = true ∨ (NearVoxel size t (fun i => c i + g i - 1) ∧
        triangleIntersectsVoxel t (voxelCentre size fun i => c i + g i - 1) (fun _ => 1 / 2 * size) = true) := by
  obtain ⟨m', h1, h2, h3⟩ := foldlM_marks (testVoxel size (orgOf size g) t)
    (fun p c => p = voxelCentre size (fun i => c i + g i - 1) ∧ triangleIntersectsVoxel t p (fun _ => 1 / 2 * size) = true) S
    (aabbIntersectingBoxes (triMin t) (triMax t) size) (by
      intro p hp m hm
      obtain ⟨k, rfl, hk⟩ := (mem_aabb _ _ _ _).1 hp
      have hidx : (fun i => cInt ((voxelCentre size k i - orgOf size g i) / size)) = fun i => k i + 1 - g i := by
        funext i
        have : (voxelCentre size k i - orgOf size g i) / size = ((k i + 1 - g i : ℤ) : K) := by
          unfold voxelCentre orgOf; push_cast; field_simp; ring
        rw [this, cInt_intCast]
      have hin : Inside m.shape fun i => k i + 1 - g i := by
        rw [hm]
        intro i
        have := hk i
        have := hroom i
        have := cInt_sub_one_ge (triMin t i / size)
        have := cInt_add_one_le (triMax t i / size)
        show 0 ≤ k i + 1 - g i ∧ k i + 1 - g i < S i
        omega
      have hself : ∀ c : Cell 3, voxelCentre size k = voxelCentre size (fun i => c i + g i - 1) ↔ c = fun i => k i + 1 - g i := by
        intro c
        constructor
        · intro h
          have := voxelCentre_inj hs h
          funext i
          have : k i = c i + g i - 1 := congrFun this i
          omega
        · rintro rfl
          congr 1
          funext i
          ring
      unfold testVoxel
      dsimp only
      rw [hidx, if_neg (not_not.2 hin)]
      by_cases hv : m.val (fun i => k i + 1 - g i) = false
      · rw [if_pos hv]
        by_cases htest : triangleIntersectsVoxel t (voxelCentre size k) (fun _ => 1 / 2 * size) = true
        · rw [if_pos htest]
          obtain ⟨m1, w1, s1, v1⟩ := writeCell_spec m _ hin
          refine ⟨m1, w1, s1.trans hm, fun c => ?_⟩
          rw [v1, hself, and_iff_left htest]
        · rw [if_neg htest]
          exact ⟨m, rfl, hm, fun c => ⟨Or.inl, fun h => h.elim id fun h => absurd h.2 htest⟩⟩
      · rw [if_neg hv]
        refine ⟨m, rfl, hm, fun c => ?_⟩
        rw [hself]
        constructor
        · exact Or.inl
        · rintro (h | ⟨rfl, -⟩)
          · exact h
          · simpa using hv) m hm
  refine ⟨m', h1, h2, fun c => ?_⟩
  rw [h3]
  refine or_congr Iff.rfl ?_
  constructor
  · rintro ⟨p, hp, rfl, htest⟩
    refine ⟨?_, htest⟩
    -- the test looks at the bounding box
    intro i
    have := intersects_near htest i
    unfold voxelCentre at this
    dsimp only at this
    constructor
    · refine le_trans (le_of_eq ?_) this.1; ring
    · refine this.2.trans (le_of_eq ?_); ring
  · rintro ⟨hnear, htest⟩
    refine ⟨_, (mem_aabb _ _ _ _).2 ⟨_, rfl, fun i => ?_⟩, rfl, htest⟩
    have hb := near_bounds hs hnear i
    have := cInt_sub_one_le (triMin t i / size)
    have := cInt_add_one_ge (triMax t i / size)
    omega

/-- One triangle. -/
lemma voxelize_spec {size : K} (hs : 0 < size) {t : Tri3 K} {g : Fin 3 → ℤ} {S : Fin 3 → ℕ} (hroom : Room size g S t) :
    ∃ fuel, ∀ fuel', fuel ≤ fuel' → ∀ m : Mat 3, m.shape = S →
      ∃ m', voxelizeTriangle fuel' size (orgOf size g) m t = .ok m' ∧ m'.shape = S ∧
        ∀ c, m'.val c = true ↔ m.val c = true ∨ Marks size t (fun i => c i + g i - 1) := by
  by_cases heq : hasEqualPoints t
  · refine ⟨0, fun fuel' _ m hm => ⟨m, if_pos heq, hm, fun c => ?_⟩⟩
    unfold Marks
    rw [← not_hasEqualPoints]
    simp [heq]
  · have ht := (not_hasEqualPoints t).1 heq
    have plane : ∀ a, isInterface size t a → (∃ fuel, ∀ fuel', fuel ≤ fuel' → ∀ m : Mat 3, m.shape = S →
        ∃ m', voxelizeTriangle fuel' size (orgOf size g) m t = .ok m' ∧ m'.shape = S ∧
          ∀ c, m'.val c = true ↔ m.val c = true ∨ MeetsVoxel size t (fun i => c i + g i - 1)) →
        ∃ fuel, ∀ fuel', fuel ≤ fuel' → ∀ m : Mat 3, m.shape = S →
          ∃ m', voxelizeTriangle fuel' size (orgOf size g) m t = .ok m' ∧ m'.shape = S ∧
            ∀ c, m'.val c = true ↔ m.val c = true ∨ Marks size t (fun i => c i + g i - 1) := by
      rintro a ha ⟨fuel, h⟩
      obtain ⟨n, hn⟩ := (isInterface_iff hs t a).1 ha
      have hplane : InGridPlane size t := ⟨a, n, hn⟩
      refine ⟨fuel, fun fuel' hle m hm => ?_⟩
      obtain ⟨m', h1, h2, h3⟩ := h fuel' hle m hm
      refine ⟨m', h1, h2, fun c => ?_⟩
      rw [h3]
      unfold Marks
      simp [ht, hplane]
    by_cases h0 : isInterface size t 0
    · obtain ⟨n, hn1, hn2, hn3⟩ := (isInterface_iff hs t 0).1 h0
      obtain ⟨fuel, h⟩ := interface_spec (a := 0) (u := 1) (v := 2) (by decide) (by decide) (by decide) (by decide) hs ht hn1 hn2 hn3 hroom
      refine plane 0 h0 ⟨fuel, fun fuel' hle m hm => ?_⟩
      unfold voxelizeTriangle
      rw [if_neg heq, if_pos h0]
      exact h fuel' hle m hm
    · by_cases h1 : isInterface size t 1
      · obtain ⟨n, hn1, hn2, hn3⟩ := (isInterface_iff hs t 1).1 h1
        obtain ⟨fuel, h⟩ := interface_spec (a := 1) (u := 0) (v := 2) (by decide) (by decide) (by decide) (by decide) hs ht hn1 hn2 hn3 hroom
        refine plane 1 h1 ⟨fuel, fun fuel' hle m hm => ?_⟩
        unfold voxelizeTriangle
        rw [if_neg heq, if_neg h0, if_pos h1]
        exact h fuel' hle m hm
      · by_cases h2 : isInterface size t 2
        · obtain ⟨n, hn1, hn2, hn3⟩ := (isInterface_iff hs t 2).1 h2
          obtain ⟨fuel, h⟩ := interface_spec (a := 2) (u := 0) (v := 1) (by decide) (by decide) (by decide) (by decide) hs ht hn1 hn2 hn3 hroom
          refine plane 2 h2 ⟨fuel, fun fuel' hle m hm => ?_⟩
          unfold voxelizeTriangle
          rw [if_neg heq, if_neg h0, if_neg h1, if_pos h2]
          exact h fuel' hle m hm
        · have hnp : ¬ InGridPlane size t := by
            rintro ⟨a, n, hn⟩
            have := (isInterface_iff hs t a).2 ⟨n, hn⟩
            have ha : a = 0 ∨ a = 1 ∨ a = 2 := by fin_cases a <;> simp
            rcases ha with rfl | rfl | rfl
            · exact h0 this
            · exact h1 this
            · exact h2 this
          refine ⟨0, fun fuel' _ m hm => ?_⟩
          obtain ⟨m', e1, e2, e3⟩ := general_spec hs hroom m hm
          refine ⟨m', ?_, e2, fun c => ?_⟩
          · unfold voxelizeTriangle
            rw [if_neg heq, if_neg h0, if_neg h1, if_neg h2]
            exact e1
          · rw [e3]
            unfold Marks
            simp [ht, hnp]

/-- Enough fuel for all the triangles. -/
lemma common_fuel {α : Type} (l : List α) (P : ℕ → α → Prop) (h : ∀ a ∈ l, ∃ n, ∀ n', n ≤ n' → P n' a) :
    ∃ n, ∀ n', n ≤ n' → ∀ a ∈ l, P n' a := by
  induction l with
  | nil => exact ⟨0, by simp⟩
  | cons a l ih =>
    obtain ⟨n1, h1⟩ := h a (List.mem_cons_self ..)
    obtain ⟨n2, h2⟩ := ih fun b hb => h b (List.mem_cons_of_mem _ hb)
    refine ⟨max n1 n2, fun n' hn b hb => ?_⟩
    rcases List.mem_cons.1 hb with rfl | hb
    · exact h1 n' (le_trans (le_max_left _ _) hn)
    · exact h2 n' (le_trans (le_max_right _ _) hn) b hb

lemma trianglesMin_le (t : Tri3 K) (ts : List (Tri3 K)) (i : Fin 3) : ∀ r ∈ t :: ts, trianglesMin t ts i ≤ triMin r i := by
  intro r hr
  obtain ⟨⟨h1, h2⟩, -⟩ := foldl_min_spec (fun r : Tri3 K => triMin r i) ts (triMin t i)
  rcases List.mem_cons.1 hr with rfl | h
  · exact h1
  · exact h2 r h

lemma le_trianglesMax (t : Tri3 K) (ts : List (Tri3 K)) (i : Fin 3) : ∀ r ∈ t :: ts, triMax r i ≤ trianglesMax t ts i := by
  intro r hr
  obtain ⟨⟨h1, h2⟩, -⟩ := foldl_max_spec (fun r : Tri3 K => triMax r i) ts (triMax t i)
  rcases List.mem_cons.1 hr with rfl | h
  · exact h1
  · exact h2 r h

/-- The voxels of a list of triangles are those marked by one of them. -/
theorem matrix_spec (l : List (Tri3 K)) (hl : l ≠ []) {size : K} (hs : 0 < size) :
    ∃ fuel v, (∀ fuel', fuel ≤ fuel' → trianglesToVoxelMatrix fuel' l size = .ok v) ∧ v.size = size ∧
      (∀ p, p ∈ v.centres ↔ ∃ k, p = voxelCentre size k ∧ ∃ t ∈ l, Marks size t k) := by
  rcases l with _ | ⟨t, ts⟩
  · exact absurd rfl hl
  set g : Fin 3 → ℤ := fun i => ⌊trianglesMin t ts i / size⌋ with hg
  set S : Fin 3 → ℕ := fun i => ((⌊trianglesMax t ts i / size⌋ + 1) - ⌊trianglesMin t ts i / size⌋ + 2).toNat with hS
  have hroom : ∀ r ∈ t :: ts, Room size g S r := by
    intro r hr i
    have h1 : g i ≤ ⌊triMin r i / size⌋ := Int.floor_mono (by gcongr; exact trianglesMin_le t ts i r hr)
    have h2 : ⌊triMax r i / size⌋ ≤ ⌊trianglesMax t ts i / size⌋ := Int.floor_mono (by gcongr; exact le_trianglesMax t ts i r hr)
    refine ⟨h1, ?_⟩
    simp only [hS, hg]
    omega
  obtain ⟨fuel, hfuel⟩ := common_fuel (t :: ts) (fun fuel' r => ∀ m : Mat 3, m.shape = S →
      ∃ m', voxelizeTriangle fuel' size (orgOf size g) m r = .ok m' ∧ m'.shape = S ∧
        ∀ c, m'.val c = true ↔ m.val c = true ∨ Marks size r (fun i => c i + g i - 1)) fun r hr => voxelize_spec hs (hroom r hr)
  have run : ∀ fuel', fuel ≤ fuel' → ∃ m', (t :: ts).foldlM (voxelizeTriangle fuel' size (orgOf size g)) (mkMat S fun _ => false) = .ok m' ∧
      m'.shape = S ∧ ∀ c, m'.val c = true ↔ ∃ r ∈ t :: ts, Marks size r (fun i => c i + g i - 1) := by
    intro fuel' hle
    obtain ⟨m', h1, h2, h3⟩ := foldlM_marks (voxelizeTriangle fuel' size (orgOf size g)) (fun r c => Marks size r (fun i => c i + g i - 1)) S (t :: ts)
      (hfuel fuel' hle) (mkMat S fun _ => false) rfl
    refine ⟨m', h1, h2, fun c => ?_⟩
    rw [h3, mkMat_val]
    simp
  obtain ⟨m', h1, h2, h3⟩ := run fuel le_rfl
  refine ⟨fuel, ⟨m', orgOf size g, size⟩, fun fuel' hle => ?_, rfl, fun p => ?_⟩
  · obtain ⟨m'', h1', h2', h3'⟩ := run fuel' hle
    have : m'' = m' := by
      refine Mat.ext (h2'.trans h2.symm) (funext fun c => ?_)
      rw [Bool.eq_iff_iff, h3, h3']
    subst this
    show (match (t :: ts).foldlM (voxelizeTriangle fuel' size (orgOf size g)) (mkMat S fun _ => false) with
      | Except.error e => Except.error e
      | Except.ok m => Except.ok (Vox.mk m (orgOf size g) size)) = _
    rw [h1']
  · constructor
    · rintro ⟨c, hc, rfl⟩
      obtain ⟨r, hr, hm⟩ := (h3 c).1 hc
      refine ⟨_, ?_, r, hr, hm⟩
      funext i
      show ((g i : K) - 1 / 2) * size + c i * size = (((c i + g i - 1 : ℤ) : K) + 1 / 2) * size
      push_cast; ring
    · rintro ⟨k, rfl, r, hr, hm⟩
      refine ⟨fun i => k i + 1 - g i, (h3 _).2 ⟨r, hr, ?_⟩, ?_⟩
      · have : (fun i => k i + 1 - g i + g i - 1) = k := by funext i; ring
        rw [this]; exact hm
      · funext i
        show ((k i : K) + 1 / 2) * size = ((g i : K) - 1 / 2) * size + ((k i + 1 - g i : ℤ) : K) * size
        push_cast; ring

end Voxel

/-! ## The theorems -/

namespace Voxel

lemma fromTriangles_spec (l : List (Tri3 K)) (hl : l ≠ []) {size : K} (hs : 0 < size) :
    ∃ fuel v, (∀ fuel', fuel ≤ fuel' → Vox.fromTriangles fuel' l size = .ok v) ∧ v.size = size ∧
      (∀ p, p ∈ v.centres ↔ ∃ k, p = voxelCentre size k ∧ ∃ t ∈ l, Marks size t k) := by
  obtain ⟨fuel, v, h1, h2, h3⟩ := matrix_spec l hl hs
  refine ⟨fuel, v.crop, fun fuel' hle => ?_, (crop_size v).trans h2, fun p => ?_⟩
  · unfold Vox.fromTriangles
    rw [h1 fuel' hle]
    rfl
  · rw [crop_centres]
    exact h3 p

lemma pointFromTriangles_spec (l : List (Tri3 K)) (hl : l ≠ []) {size : K} (hs : 0 < size) :
    ∃ fuel v, (∀ fuel', fuel ≤ fuel' → PointVox.fromTriangles fuel' l size = .ok v) ∧ v.size = size ∧
      (∀ p, p ∈ v.centres ↔ ∃ k, p = voxelCentre size k ∧ ∃ t ∈ l, Marks size t k) := by
  obtain ⟨fuel, v, h1, h2, h3⟩ := fromTriangles_spec l hl hs
  refine ⟨fuel, ⟨v.toPoint.centres, size⟩, fun fuel' hle => ?_, rfl, fun p => ?_⟩
  · unfold PointVox.fromTriangles
    rw [h1 fuel' hle]
    rfl
  · rw [← h3 p, ← (C45_to_point v).1]
    rfl

lemma marks_of_meets {size : K} {t : Tri3 K} (ht : Proper t) {k : Fin 3 → ℤ} (h : MeetsVoxel size t k) : Marks size t k := by
  refine ⟨ht, ?_⟩
  by_cases hg : InGridPlane size t
  · exact Or.inl ⟨hg, h⟩
  · refine Or.inr ⟨hg, meets_near h, intersects_never_misses _ _ _ ?_⟩
    rw [show (1 : K) / 2 * size = size / 2 by ring]
    exact h

lemma marks_near {size : K} {t : Tri3 K} {k : Fin 3 → ℤ} (h : Marks size t k) : NearVoxel size t k := by
  rcases h.2 with ⟨_, h⟩ | ⟨_, h, _⟩
  · exact meets_near h
  · exact h

end Voxel

/-- **C134, full statement.** Every voxel of the grid that shares a point with one of the triangles is in the voxelization. -/
def C134_never_misses_full_statement (K : Type) [Field K] [LinearOrder K] [IsStrictOrderedRing K] [FloorRing K] : Prop :=
  ∀ (l : List (Tri3 K)), l ≠ [] → ∀ size : K, 0 < size →
    ∃ fuel v, (∀ fuel', fuel ≤ fuel' → Vox.fromTriangles fuel' l size = .ok v) ∧
      ∀ t ∈ l, ∀ k, MeetsVoxel size t k → voxelCentre size k ∈ v.centres

/-- **C134 (matrix based).** For any list of triangles and any voxel size `from_triangles` ends, without an access out of the
bounds of an array, and its voxelization has every voxel of the grid that shares a point with a triangle of the list that has
three different vertices. -/
theorem C134_matrix_never_misses_partial (l : List (Tri3 K)) (hl : l ≠ []) {size : K} (hs : 0 < size) :
    ∃ fuel v, (∀ fuel', fuel ≤ fuel' → Vox.fromTriangles fuel' l size = .ok v) ∧ v.size = size ∧
      ∀ t ∈ l, Proper t → ∀ k, MeetsVoxel size t k → voxelCentre size k ∈ v.centres := by
  obtain ⟨fuel, v, h1, h2, h3⟩ := fromTriangles_spec l hl hs
  exact ⟨fuel, v, h1, h2, fun t ht hp k hk => (h3 _).2 ⟨k, rfl, t, ht, marks_of_meets hp hk⟩⟩

/-- **C134 (point based).** The same for the point based voxelization. -/
theorem C134_point_never_misses_partial (l : List (Tri3 K)) (hl : l ≠ []) {size : K} (hs : 0 < size) :
    ∃ fuel v, (∀ fuel', fuel ≤ fuel' → PointVox.fromTriangles fuel' l size = .ok v) ∧ v.size = size ∧
      ∀ t ∈ l, Proper t → ∀ k, MeetsVoxel size t k → voxelCentre size k ∈ v.centres := by
  obtain ⟨fuel, v, h1, h2, h3⟩ := pointFromTriangles_spec l hl hs
  exact ⟨fuel, v, h1, h2, fun t ht hp k hk => (h3 _).2 ⟨k, rfl, t, ht, marks_of_meets hp hk⟩⟩

/-- **C134 is false for triangles with two equal vertices.** They are ignored: a list of such triangles has an empty
voxelization. -/
theorem C134_degenerate_counterexample (l : List (Tri3 K)) (hl : l ≠ []) (hd : ∀ t ∈ l, ¬ Proper t) {size : K} (hs : 0 < size) :
    ∃ fuel v, (∀ fuel', fuel ≤ fuel' → Vox.fromTriangles fuel' l size = .ok v) ∧ v.centres = ∅ := by
  obtain ⟨fuel, v, h1, _, h3⟩ := fromTriangles_spec l hl hs
  refine ⟨fuel, v, h1, Set.eq_empty_iff_forall_notMem.2 fun p hp => ?_⟩
  obtain ⟨k, _, t, ht, hm⟩ := (h3 p).1 hp
  exact hd t ht hm.1

/-- The full statement is false. -/
theorem C134_full_statement_counterexample : ¬ C134_never_misses_full_statement K := by
  intro hall
  let t : Tri3 K := (fun _ => 0, fun _ => 0, fun _ => 0)
  obtain ⟨f, v, h1, h2⟩ := hall [t] (by simp) 1 one_pos
  obtain ⟨f', v', h1', h2'⟩ := C134_degenerate_counterexample [t] (by simp) (by
    intro r hr
    rw [List.mem_singleton.1 hr]
    exact fun h => h.1 rfl) (one_pos : (0 : K) < 1)
  have e : v = v' := by
    have := (h1 (max f f') (le_max_left _ _)).symm.trans (h1' (max f f') (le_max_right _ _))
    injection this
  have : voxelCentre (1 : K) (fun _ => 0) ∈ v.centres := by
    refine h2 t (List.mem_singleton.2 rfl) _ ⟨fun _ => 0, ⟨1, 0, 0, zero_le_one, le_rfl, le_rfl, by simp, by simp [t]⟩, fun i => ?_⟩
    simp [voxelCentre]
  rw [e, h2'] at this
  exact this

/-- A triangle with three different vertices, which crosses a voxel without a vertex in it. -/
example : Proper ((![-2, 0, 0], ![2, 0, 0], ![0, 3, 1]) : Tri3 ℚ) ∧ MeetsVoxel 1 ((![-2, 0, 0], ![2, 0, 0], ![0, 3, 1]) : Tri3 ℚ) ![0, -1, -1] := by
  refine ⟨by decide +kernel, ![0, 0, 0], ⟨1 / 2, 1 / 2, 0, by norm_num, by norm_num, by norm_num, by norm_num, fun i => ?_⟩, fun i => ?_⟩
  · fin_cases i <;> simp
  · fin_cases i <;> simp [voxelCentre] <;> norm_num

/-- **C135, full statement.** Every voxel of the voxelization shares a point with one of the triangles. -/
def C135_exact_full_statement (K : Type) [Field K] [LinearOrder K] [IsStrictOrderedRing K] [FloorRing K] : Prop :=
  ∀ (l : List (Tri3 K)), l ≠ [] → ∀ size : K, 0 < size →
    ∃ fuel v, (∀ fuel', fuel ≤ fuel' → Vox.fromTriangles fuel' l size = .ok v) ∧
      ∀ p ∈ v.centres, ∃ k, p = voxelCentre size k ∧ ∃ t ∈ l, MeetsVoxel size t k

/-- **C135 (no far voxels).** Every voxel of the voxelization is one of the grid and shares a point with the bounding box of a
triangle of the list, so that it is at most the size of the triangle away from it. -/
theorem C135_no_far_voxels_partial (l : List (Tri3 K)) (hl : l ≠ []) {size : K} (hs : 0 < size) :
    ∃ fuel v, (∀ fuel', fuel ≤ fuel' → Vox.fromTriangles fuel' l size = .ok v) ∧
      ∀ p ∈ v.centres, ∃ k, p = voxelCentre size k ∧ ∃ t ∈ l, NearVoxel size t k := by
  obtain ⟨fuel, v, h1, _, h3⟩ := fromTriangles_spec l hl hs
  refine ⟨fuel, v, h1, fun p hp => ?_⟩
  obtain ⟨k, hk, t, ht, hm⟩ := (h3 p).1 hp
  exact ⟨k, hk, t, ht, marks_near hm⟩

/-- **C135 (exact for triangles in planes of the grid).** If every triangle has three different vertices and is in a plane
between voxels, the voxels are exactly those that share a point with one of the triangles: those on both sides of the triangles. -/
theorem C135_grid_planes_exact (l : List (Tri3 K)) (hl : l ≠ []) {size : K} (hs : 0 < size)
    (hg : ∀ t ∈ l, Proper t ∧ InGridPlane size t) :
    ∃ fuel v, (∀ fuel', fuel ≤ fuel' → Vox.fromTriangles fuel' l size = .ok v) ∧
      ∀ p, p ∈ v.centres ↔ ∃ k, p = voxelCentre size k ∧ ∃ t ∈ l, MeetsVoxel size t k := by
  obtain ⟨fuel, v, h1, _, h3⟩ := fromTriangles_spec l hl hs
  refine ⟨fuel, v, h1, fun p => ?_⟩
  rw [h3 p]
  refine exists_congr fun k => and_congr_right fun _ => exists_congr fun t => and_congr_right fun ht => ?_
  refine ⟨fun h => ?_, fun h => marks_of_meets (hg t ht).1 h⟩
  rcases h.2 with ⟨_, h⟩ | ⟨hn, _, _⟩
  · exact h
  · exact absurd (hg t ht).2 hn

/-- A triangle in a plane of the grid. -/
example : Proper ((![3, 0, 0], ![3, 5, 0], ![3, 1 / 3, 7]) : Tri3 ℚ) ∧ InGridPlane (1 / 2) ((![3, 0, 0], ![3, 5, 0], ![3, 1 / 3, 7]) : Tri3 ℚ) :=
  ⟨by decide +kernel, 0, 6, by norm_num⟩

/-- **C135 is false.** A voxel that is near an edge of the triangle without sharing a point with it can be in the
voxelization. -/
theorem C135_spurious_voxel_counterexample : ¬ C135_exact_full_statement ℚ := by
  intro hall
  let t : Tri3 ℚ := (![1, 1, 3], ![0, 1 / 2, 5 / 2], ![-1, 0, 2])
  obtain ⟨f, v, h1, h2⟩ := hall [t] (by simp) 2 (by norm_num)
  obtain ⟨f', v', h1', _, h3⟩ := fromTriangles_spec [t] (by simp) (size := (2 : ℚ)) (by norm_num)
  have e : v = v' := by
    have := (h1 (max f f') (le_max_left _ _)).symm.trans (h1' (max f f') (le_max_right _ _))
    injection this
  have hm : voxelCentre (2 : ℚ) (fun _ => 0) ∈ v.centres := by
    rw [e]
    refine (h3 _).2 ⟨_, rfl, t, List.mem_singleton.2 rfl, by decide +kernel, Or.inr ⟨?_, ?_, ?_⟩⟩
    · rintro ⟨a, n, h1, h2, h3⟩
      have ha : a = 0 ∨ a = 1 ∨ a = 2 := by fin_cases a <;> simp
      rcases ha with rfl | rfl | rfl
      · have : (1 : ℚ) = 0 := h1.trans h2.symm
        norm_num at this
      · have : (1 : ℚ) = 1 / 2 := h1.trans h2.symm
        norm_num at this
      · have : (3 : ℚ) = 5 / 2 := h1.trans h2.symm
        norm_num at this
    · unfold NearVoxel; decide +kernel
    · decide +kernel
  obtain ⟨k, hk, r, hr, p, ⟨a, b, c, ha, hb, hc, hsum, hp⟩, hin⟩ := h2 _ hm
  rw [List.mem_singleton.1 hr] at hp
  have h0 := hp 0
  have hz := hp 2
  have b0 := hin 0
  have b2 := hin 2
  rw [← hk] at b0 b2
  simp [t, voxelCentre] at h0 hz b0 b2
  linarith [b0.1, b0.2, b2.1, b2.2]

/-- **C136 (the order of the triangles).** Lists with the same triangles, in any order and any number of times, have the same
voxels; the point based voxelizations are equal. -/
theorem C136_order_irrelevant (l l' : List (Tri3 K)) (hl : l ≠ []) (h : ∀ t, t ∈ l ↔ t ∈ l') {size : K} (hs : 0 < size) :
    (∃ fuel v v', (∀ fuel', fuel ≤ fuel' → Vox.fromTriangles fuel' l size = .ok v ∧ Vox.fromTriangles fuel' l' size = .ok v') ∧
      v.size = v'.size ∧ v.centres = v'.centres) ∧
    ∃ fuel v, ∀ fuel', fuel ≤ fuel' → PointVox.fromTriangles fuel' l size = .ok v ∧ PointVox.fromTriangles fuel' l' size = .ok v := by
  have hl' : l' ≠ [] := by
    obtain ⟨t, ht⟩ := List.exists_mem_of_ne_nil _ hl
    exact List.ne_nil_of_mem ((h t).1 ht)
  constructor
  · obtain ⟨f, v, h1, h2, h3⟩ := fromTriangles_spec l hl hs
    obtain ⟨f', v', h1', h2', h3'⟩ := fromTriangles_spec l' hl' hs
    refine ⟨max f f', v, v', fun n hn => ⟨h1 n (le_trans (le_max_left _ _) hn), h1' n (le_trans (le_max_right _ _) hn)⟩, h2.trans h2'.symm, ?_⟩
    ext p
    rw [h3, h3']
    simp only [h]
  · obtain ⟨f, v, h1, h2, h3⟩ := pointFromTriangles_spec l hl hs
    obtain ⟨f', v', h1', h2', h3'⟩ := pointFromTriangles_spec l' hl' hs
    have e : v = v' := by
      obtain ⟨c, s⟩ := v
      obtain ⟨c', s'⟩ := v'
      have : c = c' := by
        ext p
        rw [h3, h3']
        simp only [h]
      subst this
      simp only at h2 h2'
      rw [h2, h2']
    subst e
    exact ⟨max f f', v, fun n hn => ⟨h1 n (le_trans (le_max_left _ _) hn), h1' n (le_trans (le_max_right _ _) hn)⟩⟩

/-- **C136 (union).** The voxels of two lists of triangles together are those of the first and those of the second list. -/
theorem C136_append_is_union (l l' : List (Tri3 K)) (hl : l ≠ []) (hl' : l' ≠ []) {size : K} (hs : 0 < size) :
    ∃ fuel v v' w, (∀ fuel', fuel ≤ fuel' → PointVox.fromTriangles fuel' l size = .ok v ∧ PointVox.fromTriangles fuel' l' size = .ok v' ∧
      PointVox.fromTriangles fuel' (l ++ l') size = .ok w) ∧ w.centres = v.centres ∪ v'.centres := by
  obtain ⟨f, v, h1, _, h3⟩ := pointFromTriangles_spec l hl hs
  obtain ⟨f', v', h1', _, h3'⟩ := pointFromTriangles_spec l' hl' hs
  obtain ⟨f'', w, h1'', _, h3''⟩ := pointFromTriangles_spec (l ++ l') (by simp [hl]) hs
  refine ⟨max f (max f' f''), v, v', w, fun n hn => ?_, ?_⟩
  · simp only [max_le_iff] at hn
    exact ⟨h1 n hn.1, h1' n hn.2.1, h1'' n hn.2.2⟩
  · ext p
    rw [Finset.mem_union, h3, h3', h3'']
    simp only [List.mem_append]
    constructor
    · rintro ⟨k, hk, t, ht | ht, hm⟩
      · exact Or.inl ⟨k, hk, t, ht, hm⟩
      · exact Or.inr ⟨k, hk, t, ht, hm⟩
    · rintro (⟨k, hk, t, ht, hm⟩ | ⟨k, hk, t, ht, hm⟩)
      · exact ⟨k, hk, t, Or.inl ht, hm⟩
      · exact ⟨k, hk, t, Or.inr ht, hm⟩

/-- **C136 (refining the triangles).** A triangle may be replaced by triangles that cover it without losing voxels that it meets:
the voxels that share a point with the triangle are among those of the list, if all of them have three different vertices. -/
theorem C136_subdivided_triangles_cover (t : Tri3 K) (l : List (Tri3 K)) (hp : ∀ r ∈ l, Proper r)
    (hcover : ∀ p, TriContains t p → ∃ r ∈ l, TriContains r p) {size : K} (hs : 0 < size) :
    ∃ fuel v, (∀ fuel', fuel ≤ fuel' → Vox.fromTriangles fuel' l size = .ok v) ∧ ∀ k, MeetsVoxel size t k → voxelCentre size k ∈ v.centres := by
  have hl : l ≠ [] := by
    obtain ⟨r, hr, _⟩ := hcover t.1 ⟨1, 0, 0, zero_le_one, le_rfl, le_rfl, by simp, by simp⟩
    exact List.ne_nil_of_mem hr
  obtain ⟨fuel, v, h1, _, h3⟩ := fromTriangles_spec l hl hs
  refine ⟨fuel, v, h1, fun k hk => ?_⟩
  obtain ⟨p, hp1, hp2⟩ := hk
  obtain ⟨r, hr, hc⟩ := hcover p hp1
  exact (h3 _).2 ⟨k, rfl, r, hr, marks_of_meets (hp r hr) ⟨p, hc, hp2⟩⟩

/-- **C136 (no triangles).** Without triangles `from_triangles` fails. -/
theorem C136_no_triangles (fuel : ℕ) (size : K) : Vox.fromTriangles fuel [] size = .error .valueError ∧
    PointVox.fromTriangles fuel [] size = .error .valueError := ⟨rfl, rfl⟩

end Volmdlr
