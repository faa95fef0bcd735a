import Verif.Voxel.OctreeProps

/-!
# C41 and C42: the theorems about octrees
-/

namespace Volmdlr
open Voxel

variable {K : Type} [Field K] [LinearOrder K] [IsStrictOrderedRing K] [FloorRing K]

/-- **Specification.** An octree as the class methods build it: centred at the origin, with at least one level, voxels
of positive size and leaves at the maximal depth only. -/
structure GoodOctree (v : OctVox K) : Prop where
  centre : v.rootC = fun _ => 0
  depth : 0 < v.depth
  size : 0 < v.size
  wf : WF v.depth v.octree

namespace Voxel

theorem bit_opposite (i j : Fin 8) (h : j.val = 7 - i.val) (a : Fin 3) : octBit i a + octBit j a = 1 := by
  revert i j a; decide

theorem opposite_exists (i : Fin 8) : ∃ j : Fin 8, j.val = 7 - i.val := ⟨⟨7 - i.val, by omega⟩, rfl⟩

theorem increment_good (v : OctVox K) (h : GoodOctree v) :
    ∃ w, v.increment = .ok w ∧ GoodOctree w ∧ w.depth = v.depth + 1 ∧ w.size = v.size ∧ w.triangles = v.triangles ∧ w.centres = v.centres := by
  refine ⟨{ v with
    octree := .node fun i => .node fun j => if j.val = 7 - i.val then v.octree.child i else .leaf []
    depth := v.depth + 1 }, ?_, ⟨h.centre, Nat.succ_pos _, h.size, ?_⟩, rfl, rfl, rfl, ?_⟩
  · unfold OctVox.increment
    rw [if_neg (not_not.2 h.centre)]
  · obtain ⟨m, hm⟩ : ∃ m, v.depth = m + 1 := ⟨v.depth - 1, by have := h.depth; omega⟩
    have hwf := h.wf
    show WF (v.depth + 1) _
    rw [hm] at hwf ⊢
    refine Or.inr ⟨_, rfl, fun i => Or.inr ⟨_, rfl, fun j => ?_⟩⟩
    split_ifs
    · exact hwf.child i
    · exact WF_empty m
  · ext q
    unfold OctVox.centres
    dsimp only
    rw [leafCentres_has _ _ _ _ (Or.inl (Nat.succ_pos _)), leafCentres_has _ _ _ _ (Or.inl h.depth)]
    obtain ⟨m, hm⟩ : ∃ m, v.depth = m + 1 := ⟨v.depth - 1, by have := h.depth; omega⟩
    rw [hm]
    have hcentre : ∀ (i j : Fin 8) (p : List (Fin 8)), j.val = 7 - i.val →
        pathCentre (v.size * 2 ^ (m + 1 + 1)) v.rootC (i :: j :: p) = pathCentre (v.size * 2 ^ (m + 1)) v.rootC (i :: p) := by
      intro i j p hj
      rw [pathCentre, pathCentre, pathCentre]
      have hsz : v.size * 2 ^ (m + 1 + 1) / 2 / 2 = v.size * 2 ^ (m + 1) / 2 := by rw [pow_succ]; ring
      rw [hsz]
      congr 1
      funext a
      unfold childCentre
      have hb : (octBit j a : K) = 1 - octBit i a := by
        have := bit_opposite i j hj a
        have h2 : (octBit i a : K) + octBit j a = 1 := by exact_mod_cast this
        linarith
      rw [hb, pow_succ _ (m + 1)]
      ring
    constructor
    · rintro ⟨p, h1, h2⟩
      match p, h1, h2 with
      | [], h1, _ => cases h1
      | [i], h1, _ => cases h1
      | i :: j :: p, h1, h2 =>
        change Oct.has m (if j.val = 7 - i.val then v.octree.child i else .leaf []) p = true at h1
        by_cases hj : j.val = 7 - i.val
        · rw [if_pos hj] at h1
          exact ⟨i :: p, h1, by rw [h2, hcentre i j p hj]⟩
        · rw [if_neg hj, has_empty] at h1
          cases h1
    · rintro ⟨p, h1, h2⟩
      cases p with
      | nil => cases h1
      | cons i p =>
        obtain ⟨j, hj⟩ := opposite_exists i
        refine ⟨i :: j :: p, ?_, by rw [h2, hcentre i j p hj]⟩
        show Oct.has m (if j.val = 7 - i.val then v.octree.child i else .leaf []) p = true
        rw [if_pos hj]
        exact h1

theorem incrementTimes_good (k : ℕ) (v : OctVox K) (h : GoodOctree v) :
    ∃ w, v.incrementTimes k = .ok w ∧ GoodOctree w ∧ w.depth = v.depth + k ∧ w.size = v.size ∧ w.centres = v.centres := by
  induction k generalizing v with
  | zero => exact ⟨v, rfl, h, rfl, rfl, rfl⟩
  | succ k ih =>
    obtain ⟨w, h1, h2, h3, h4, _, h5⟩ := increment_good v h
    obtain ⟨u, h6, h7, h8, h9, h10⟩ := ih w h2
    refine ⟨u, ?_, h7, by omega, h9.trans h4, h10.trans h5⟩
    rw [OctVox.incrementTimes, h1]
    exact h6

theorem sameDepth_good (v w : OctVox K) (hv : GoodOctree v) (hw : GoodOctree w) (hs : v.size = w.size) :
    ∃ v' w', sameDepth v w = .ok (v', w') ∧ GoodOctree v' ∧ GoodOctree w' ∧ v'.depth = w'.depth ∧ v'.depth = max v.depth w.depth ∧
      v'.size = v.size ∧ v'.size = w'.size ∧ v'.centres = v.centres ∧ w'.centres = w.centres := by
  obtain ⟨v', h1, h2, h3, h4, h5⟩ := incrementTimes_good (w.depth - v.depth) v hv
  obtain ⟨w', h6, h7, h8, h9, h10⟩ := incrementTimes_good (v.depth - w.depth) w hw
  refine ⟨v', w', ?_, h2, h7, by omega, by omega, h4, by rw [h4, h9, hs], h5, h10⟩
  unfold sameDepth
  rw [if_neg (not_not.2 hs), h1, h6]

theorem boolOp_spec (op : ℕ → OctOp) (tr : ℕ → ℕ → ℕ) (F : Bool → Bool → Bool) (hF : ∀ n, OpOk (op n) F) (v w : OctVox K) (hv : GoodOctree v) (hw : GoodOctree w)
    (hs : v.size = w.size) :
    ∃ r, v.boolOp op tr w = .ok r ∧ GoodOctree r ∧ r.size = v.size ∧ r.depth = max v.depth w.depth ∧
      ∀ q, q ∈ r.centres ↔ ∃ a b, F a b = true ∧ (a = true ↔ q ∈ v.centres) ∧ (b = true ↔ q ∈ w.centres) := by
  obtain ⟨v', w', h1, h2, h3, h4, h5, h6, h7, h8, h9⟩ := sameDepth_good v w hv hw hs
  refine ⟨⟨recOp (op v'.triangles) v'.depth v'.octree w'.octree, fun _ => 0, v'.depth, v'.size, tr v.triangles w.triangles⟩, ?_, ⟨rfl, h2.depth, h2.size, WF_recOp _ _ _ _⟩, h6, h5, fun q => ?_⟩
  · unfold OctVox.boolOp
    rw [h1]
  · rw [← h8, ← h9]
    have hpos : 0 < v'.size * 2 ^ v'.depth := mul_pos h2.size (pow_pos two_pos _)
    have hvc : ∀ q, q ∈ v'.centres ↔ ∃ p, Oct.has v'.depth v'.octree p = true ∧ q = pathCentre (v'.size * 2 ^ v'.depth) (fun _ => 0) p := by
      intro q
      unfold OctVox.centres
      rw [leafCentres_has _ _ _ _ (Or.inl h2.depth), h2.centre]
    have hwc : ∀ q, q ∈ w'.centres ↔ ∃ p, Oct.has v'.depth w'.octree p = true ∧ q = pathCentre (v'.size * 2 ^ v'.depth) (fun _ => 0) p := by
      intro q
      unfold OctVox.centres
      rw [leafCentres_has _ _ _ _ (Or.inl h3.depth), h3.centre, h4, h7]
    have hrc : q ∈ (⟨recOp (op v'.triangles) v'.depth v'.octree w'.octree, fun _ => 0, v'.depth, v'.size, tr v.triangles w.triangles⟩ : OctVox K).centres ↔
        ∃ p, F (Oct.has v'.depth v'.octree p) (Oct.has v'.depth w'.octree p) = true ∧ q = pathCentre (v'.size * 2 ^ v'.depth) (fun _ => 0) p := by
      unfold OctVox.centres
      dsimp only
      rw [leafCentres_has _ _ _ _ (Or.inl h2.depth)]
      have := fun p => recOp_has (op v'.triangles) F (hF _) v'.depth v'.octree w'.octree h2.wf (h4 ▸ h3.wf) (Or.inl h2.depth) p
      simp only [this]
    have huniq : ∀ (t : Oct) (p : List (Fin 8)), p.length = v'.depth → ((∃ p', Oct.has v'.depth t p' = true ∧ pathCentre (v'.size * 2 ^ v'.depth) (fun _ => 0) p = pathCentre (v'.size * 2 ^ v'.depth) (fun _ => 0) p') ↔ Oct.has v'.depth t p = true) := by
      intro t p hl
      constructor
      · rintro ⟨p', h10, h11⟩
        have := pathCentre_inj _ hpos _ p p' (by rw [hl, has_length _ _ _ h10]) h11
        rw [this]; exact h10
      · intro h; exact ⟨p, h, rfl⟩
    rw [hrc]
    constructor
    · rintro ⟨p, h10, rfl⟩
      have hl : p.length = v'.depth := by
        by_contra hne
        have ha : Oct.has v'.depth v'.octree p = false := by
          by_contra h; exact hne (has_length _ _ _ (by simpa using h))
        have hb : Oct.has v'.depth w'.octree p = false := by
          by_contra h; exact hne (has_length _ _ _ (by simpa using h))
        rw [ha, hb, (hF 0).none] at h10
        cases h10
      refine ⟨_, _, h10, ?_, ?_⟩
      · rw [hvc, huniq _ p hl]
      · rw [hwc, huniq _ p hl]
    · rintro ⟨a, b, h10, ha, hb⟩
      have hp : ∃ p : List (Fin 8), p.length = v'.depth ∧ q = pathCentre (v'.size * 2 ^ v'.depth) (fun _ => 0) p := by
        cases a with
        | true =>
          obtain ⟨p, h11, h12⟩ := (hvc q).1 (ha.1 rfl)
          exact ⟨p, has_length _ _ _ h11, h12⟩
        | false =>
          cases b with
          | true =>
            obtain ⟨p, h11, h12⟩ := (hwc q).1 (hb.1 rfl)
            exact ⟨p, has_length _ _ _ h11, h12⟩
          | false => rw [(hF 0).none] at h10; cases h10
      obtain ⟨p, hl, rfl⟩ := hp
      refine ⟨p, ?_, rfl⟩
      rw [hvc, huniq _ p hl, ← Bool.eq_iff_iff] at ha
      rw [hwc, huniq _ p hl, ← Bool.eq_iff_iff] at hb
      rw [← ha, ← hb]
      exact h10

end Voxel

/-- **C41.** For octrees with the same voxel size, of any depths, each Boolean operation succeeds and gives the set
operation on the voxel centres (and an octree for which this holds again). -/
theorem C41_boolean_operations (v w : OctVox K) (hv : GoodOctree v) (hw : GoodOctree w) (hs : v.size = w.size) :
    (∃ r, v.union w = .ok r ∧ GoodOctree r ∧ r.size = v.size ∧ r.centres = v.centres ∪ w.centres) ∧
    (∃ r, v.intersection w = .ok r ∧ GoodOctree r ∧ r.size = v.size ∧ r.centres = v.centres ∩ w.centres) ∧
    (∃ r, v.difference w = .ok r ∧ GoodOctree r ∧ r.size = v.size ∧ r.centres = v.centres \ w.centres) ∧
    (∃ r, v.symmetricDifference w = .ok r ∧ GoodOctree r ∧ r.size = v.size ∧
      r.centres = (v.centres \ w.centres) ∪ (w.centres \ v.centres)) := by
  refine ⟨?_, ?_, ?_, ?_⟩
  · obtain ⟨r, h1, h2, h3, _, h4⟩ := boolOp_spec unionOp (· + ·) _ unionOk v w hv hw hs
    refine ⟨r, h1, h2, h3, Set.ext fun p => (h4 p).trans ?_⟩
    simp only [Bool.exists_bool, Set.mem_union]
    by_cases h5 : p ∈ v.centres <;> by_cases h6 : p ∈ w.centres <;> simp [h5, h6]
  · obtain ⟨r, h1, h2, h3, _, h4⟩ := boolOp_spec intersectionOp (· + ·) _ intersectionOk v w hv hw hs
    refine ⟨r, h1, h2, h3, Set.ext fun p => (h4 p).trans ?_⟩
    simp only [Bool.exists_bool, Set.mem_inter_iff]
    by_cases h5 : p ∈ v.centres <;> by_cases h6 : p ∈ w.centres <;> simp [h5, h6]
  · obtain ⟨r, h1, h2, h3, _, h4⟩ := boolOp_spec (fun _ => differenceOp) (fun a _ => a) _ (fun _ => differenceOk) v w hv hw hs
    refine ⟨r, h1, h2, h3, Set.ext fun p => (h4 p).trans ?_⟩
    simp only [Bool.exists_bool, Set.mem_diff]
    by_cases h5 : p ∈ v.centres <;> by_cases h6 : p ∈ w.centres <;> simp [h5, h6]
  · obtain ⟨r, h1, h2, h3, _, h4⟩ := boolOp_spec symmetricDifferenceOp (· + ·) _ symmetricDifferenceOk v w hv hw hs
    refine ⟨r, h1, h2, h3, Set.ext fun p => (h4 p).trans ?_⟩
    simp only [Bool.exists_bool, Set.mem_union, Set.mem_diff]
    by_cases h5 : p ∈ v.centres <;> by_cases h6 : p ∈ w.centres <;> simp [h5, h6]

/-- **C41 (errors).** Octrees with different voxel sizes are refused. -/
theorem C41_different_sizes (v w : OctVox K) (h : v.size ≠ w.size) :
    v.union w = .error .valueError ∧ v.intersection w = .error .valueError ∧ v.difference w = .error .valueError ∧
      v.symmetricDifference w = .error .valueError := by
  simp [OctVox.union, OctVox.intersection, OctVox.difference, OctVox.symmetricDifference, OctVox.boolOp, sameDepth, h]

/-- **C42 (depth).** Increasing the depth of an octree changes no voxel. -/
theorem C42_increment_depth (v : OctVox K) (h : GoodOctree v) :
    ∃ w, v.increment = .ok w ∧ w.depth = v.depth + 1 ∧ w.size = v.size ∧ w.centres = v.centres := by
  obtain ⟨w, h1, _, h2, h3, _, h4⟩ := increment_good v h
  exact ⟨w, h1, h2, h3, h4⟩

/-- An octree of depth 1 with two voxels and one of depth 2 with one voxel. -/
example : GoodOctree (⟨.node fun i => if i = 0 ∨ i = 7 then .leaf [3] else .leaf [], fun _ => 0, 1, 1/2, 4⟩ : OctVox ℚ) := by
  refine ⟨rfl, by norm_num, by norm_num, Or.inr ⟨_, rfl, fun i => ?_⟩⟩
  split_ifs
  · exact ⟨_, rfl⟩
  · exact ⟨_, rfl⟩
example : GoodOctree (⟨.node fun i => if i = 2 then .node fun j => if j = 5 then .leaf [1] else .leaf [] else .leaf [], fun _ => 0, 2, 1/2, 4⟩ : OctVox ℚ) := by
  refine ⟨rfl, by norm_num, by norm_num, Or.inr ⟨_, rfl, fun i => ?_⟩⟩
  split_ifs
  · refine Or.inr ⟨_, rfl, fun j => ?_⟩
    split_ifs <;> exact ⟨_, rfl⟩
  · exact Or.inl rfl

/-! ### C42 -/

namespace Voxel

/-- The point is the centre of a voxel of the cube of centre `c` with `n` levels below. -/
def OnGrid (vs : K) (n : ℕ) (c p : Fin 3 → K) : Prop :=
  ∀ a, ∃ k : ℕ, k < 2 ^ n ∧ p a = c a + (2 * (k : K) + 1 - 2 ^ n) * vs / 2

theorem octBit_octantOf (c p : Fin 3 → K) (a : Fin 3) : octBit (octantOf c p) a = if p a > c a then 1 else 0 := by
  unfold octBit octantOf
  fin_cases a
  · by_cases h0 : p 0 > c 0 <;> by_cases h1 : p 1 > c 1 <;> by_cases h2 : p 2 > c 2 <;> simp [h0, h1, h2]
  · by_cases h0 : p 0 > c 0 <;> by_cases h1 : p 1 > c 1 <;> by_cases h2 : p 2 > c 2 <;> simp [h0, h1, h2]
  · by_cases h0 : p 0 > c 0 <;> by_cases h1 : p 1 > c 1 <;> by_cases h2 : p 2 > c 2 <;> simp [h0, h1, h2]

theorem OnGrid.child {vs : K} (hvs : 0 < vs) {n : ℕ} {c p : Fin 3 → K} (h : OnGrid vs (n + 1) c p) :
    OnGrid vs n (childCentre (vs * 2 ^ n) c (octantOf c p)) p := by
  intro a
  obtain ⟨k, hk, he⟩ := h a
  unfold childCentre
  rw [octBit_octantOf]
  by_cases hlt : p a > c a
  · rw [if_pos hlt]
    have h1 : 2 ^ n ≤ k := by
      by_contra hlt2
      push Not at hlt2
      have h2 : (k : K) + 1 ≤ 2 ^ n := by exact_mod_cast hlt2
      have : (2 * (k : K) + 1 - 2 ^ (n + 1)) < 0 := by rw [pow_succ]; linarith
      have : (2 * (k : K) + 1 - 2 ^ (n + 1)) * vs < 0 := mul_neg_of_neg_of_pos this hvs
      linarith
    refine ⟨k - 2 ^ n, by rw [pow_succ] at hk; omega, ?_⟩
    rw [he, Nat.cast_sub h1]
    push_cast
    rw [pow_succ]
    ring
  · rw [if_neg hlt]
    have h1 : k < 2 ^ n := by
      by_contra hlt2
      push Not at hlt2
      have h2 : (2 ^ n : K) ≤ k := by exact_mod_cast hlt2
      have : 0 < (2 * (k : K) + 1 - 2 ^ (n + 1)) := by rw [pow_succ]; linarith
      have : 0 < (2 * (k : K) + 1 - 2 ^ (n + 1)) * vs := mul_pos this hvs
      exact hlt (by linarith)
    refine ⟨k, h1, ?_⟩
    rw [he]
    push_cast
    rw [pow_succ]
    ring

theorem subdivide_truthy (vs : K) (n : ℕ) (points : List (Fin 3 → K)) (c : Fin 3 → K) (h : points ≠ []) :
    (subdivide vs n points c).truthy = true := by
  induction n generalizing points c with
  | zero => rfl
  | succ n ih =>
    obtain ⟨p, hp⟩ := List.exists_mem_of_ne_nil _ h
    rw [subdivide]
    dsimp only
    rw [if_neg]
    · rfl
    · intro hall
      have h1 := hall (octantOf c p)
      have h2 : (points.filter fun q => octantOf c q = octantOf c p) ≠ [] := by
        apply List.ne_nil_of_mem (a := p)
        rw [List.mem_filter]
        exact ⟨hp, by simp⟩
      rw [if_neg (by simpa using h2), ih _ _ h2] at h1
      cases h1

theorem subdivide_child (vs : K) (n : ℕ) (points : List (Fin 3 → K)) (c : Fin 3 → K) (h : points ≠ []) (i : Fin 8) :
    (subdivide vs (n + 1) points c).child i =
      if (points.filter fun p => octantOf c p = i).isEmpty then .leaf [] else subdivide vs n (points.filter fun p => octantOf c p = i) (childCentre (vs * 2 ^ n) c i) := by
  have ht := subdivide_truthy vs (n + 1) points c h
  rw [subdivide] at ht ⊢
  dsimp only at ht ⊢
  by_cases h1 : ∀ i : Fin 8, (if (points.filter fun p => octantOf c p = i).isEmpty then Oct.leaf [] else subdivide vs n (points.filter fun p => octantOf c p = i) (childCentre (vs * 2 ^ n) c i)).truthy = false
  · rw [if_pos h1] at ht
    cases ht
  · rw [if_neg h1]
    rfl

theorem subdivide_centres (vs : K) (hvs : 0 < vs) (n : ℕ) (points : List (Fin 3 → K)) (c : Fin 3 → K) (h : points ≠ [])
    (hg : ∀ p ∈ points, OnGrid vs n c p) (q : Fin 3 → K) : q ∈ leafCentres n (vs * 2 ^ n) c (subdivide vs n points c) ↔ q ∈ points := by
  induction n generalizing points c with
  | zero =>
    have hall : ∀ p ∈ points, p = c := by
      intro p hp
      funext a
      obtain ⟨k, hk, he⟩ := hg p hp a
      have : k = 0 := by simpa using hk
      rw [he, this]
      simp
    rw [leafCentres, Set.mem_singleton_iff]
    constructor
    · rintro rfl
      obtain ⟨p, hp⟩ := List.exists_mem_of_ne_nil _ h
      rw [← hall p hp]; exact hp
    · exact hall q
  | succ n ih =>
    rw [leafCentres, Set.mem_ofPred_eq]
    have hsz : vs * 2 ^ (n + 1) / 2 = vs * 2 ^ n := by rw [pow_succ]; ring
    rw [hsz]
    have hsub : ∀ i, ∀ p ∈ points.filter fun p => octantOf c p = i, OnGrid vs n (childCentre (vs * 2 ^ n) c i) p := by
      intro i p hp
      rw [List.mem_filter] at hp
      have h1 : octantOf c p = i := by simpa using hp.2
      rw [← h1]
      exact (hg p hp.1).child hvs
    constructor
    · rintro ⟨i, h1, h2⟩
      rw [subdivide_child vs n points c h] at h1 h2
      split_ifs at h1 h2 with h3
      · cases h1
      · have h4 : (points.filter fun p => octantOf c p = i) ≠ [] := by simpa using h3
        rw [ih _ _ h4 (hsub i)] at h2
        exact (List.mem_filter.1 h2).1
    · intro hq
      refine ⟨octantOf c q, ?_⟩
      have h4 : q ∈ points.filter fun p => octantOf c p = octantOf c q := by
        rw [List.mem_filter]; exact ⟨hq, by simp⟩
      have h5 := List.ne_nil_of_mem h4
      rw [subdivide_child vs n points c h, if_neg (by simpa using h5)]
      refine ⟨subdivide_truthy _ _ _ _ h5, ?_⟩
      rw [ih _ _ h5 (hsub _)]
      exact h4

end Voxel

/-- **C42.** For any non-empty list of voxel centres of the implicit grid (`minC`, `maxC` are the extreme coordinates),
the octree built from them has exactly these voxels. -/
theorem C42_from_points (vs : K) (hvs : 0 < vs) (points : List (Fin 3 → K)) (hne : points ≠ [])
    (hg : ∀ p ∈ points, inImplicitGrid vs p) (minC maxC : K) (hmin : ∀ p ∈ points, ∀ a, minC ≤ p a) (hmax : ∀ p ∈ points, ∀ a, p a ≤ maxC)
    (q : Fin 3 → K) : q ∈ (OctVox.fromPoints vs points minC maxC).centres ↔ q ∈ points := by
  unfold OctVox.centres OctVox.fromPoints
  dsimp only
  refine subdivide_centres vs hvs _ points _ hne ?_ q
  intro p hp a
  obtain ⟨m, hm⟩ := hg p hp a
  rw [div_eq_iff hvs.ne'] at hm
  have hpa : p a = ((m : K) + 1 / 2) * vs := by linarith
  -- the integers
  have h1 : ⌊minC / vs⌋ ≤ m := by
    have h2 := hmin p hp a
    have h3 : minC / vs < ((m + 1 : ℤ) : K) := by
      rw [div_lt_iff₀ hvs]; push_cast; linarith
    have := Int.floor_lt.2 h3
    omega
  have h2 : m ≤ ⌊maxC / vs⌋ := by
    rw [Int.le_floor, le_div_iff₀ hvs]
    have := hmax p hp a
    linarith
  have habs : ∀ x : ℤ, |(x : K) * vs| = ((|x| : ℤ) : K) * vs := by
    intro x
    rw [abs_mul, abs_of_pos hvs]
    push_cast
    rfl
  have hroot : ⌊max |((⌊minC / vs⌋ : K) - 2) * vs| |((⌊maxC / vs⌋ : K) + 2) * vs| * 2 / vs⌋ = max |⌊minC / vs⌋ - 2| |⌊maxC / vs⌋ + 2| * 2 := by
    have e1 : ((⌊minC / vs⌋ : K) - 2) * vs = ((⌊minC / vs⌋ - 2 : ℤ) : K) * vs := by push_cast; ring
    have e2 : ((⌊maxC / vs⌋ : K) + 2) * vs = ((⌊maxC / vs⌋ + 2 : ℤ) : K) * vs := by push_cast; ring
    rw [e1, e2, habs, habs]
    have e3 : max (((|⌊minC / vs⌋ - 2| : ℤ) : K) * vs) (((|⌊maxC / vs⌋ + 2| : ℤ) : K) * vs) = ((max |⌊minC / vs⌋ - 2| |⌊maxC / vs⌋ + 2| : ℤ) : K) * vs := by
      rw [← max_mul_of_nonneg _ _ hvs.le]
      push_cast
      rfl
    rw [e3]
    have e4 : ((max |⌊minC / vs⌋ - 2| |⌊maxC / vs⌋ + 2| : ℤ) : K) * vs * 2 / vs = ((max |⌊minC / vs⌋ - 2| |⌊maxC / vs⌋ + 2| * 2 : ℤ) : K) := by
      have := hvs.ne'
      push_cast
      field_simp
    rw [e4, Int.floor_intCast]
  have hclog := Nat.le_pow_clog (b := 2) (by norm_num) ⌊max |((⌊minC / vs⌋ : K) - 2) * vs| |((⌊maxC / vs⌋ : K) + 2) * vs| * 2 / vs⌋.toNat
  have hD : octreeDepth vs minC maxC = Nat.clog 2 ⌊max |((⌊minC / vs⌋ : K) - 2) * vs| |((⌊maxC / vs⌋ : K) + 2) * vs| * 2 / vs⌋.toNat := rfl
  rw [← hD, hroot] at hclog
  generalize octreeDepth vs minC maxC = D at hclog ⊢
  generalize ⌊minC / vs⌋ = f at *
  generalize ⌊maxC / vs⌋ = g at *
  have hM1 : 2 - f ≤ max |f - 2| |g + 2| := le_trans (by have := neg_le_abs (f - 2); omega) (le_max_left _ _)
  have hM2 : g + 2 ≤ max |f - 2| |g + 2| := le_trans (le_abs_self _) (le_max_right _ _)
  generalize max |f - 2| |g + 2| = M at *
  have hpow : M * 2 ≤ ((2 ^ D : ℕ) : ℤ) := by
    have : ((M * 2).toNat : ℤ) ≤ ((2 ^ D : ℕ) : ℤ) := by exact_mod_cast hclog
    omega
  have hDpos : D ≠ 0 := by
    rintro rfl
    simp at hpow
    omega
  obtain ⟨E, rfl⟩ : ∃ E, D = E + 1 := ⟨D - 1, by omega⟩
  have hpow2 : M ≤ ((2 ^ E : ℕ) : ℤ) := by
    rw [pow_succ] at hpow
    push_cast at hpow ⊢
    omega
  refine ⟨(m + ((2 ^ E : ℕ) : ℤ)).toNat, ?_, ?_⟩
  · rw [pow_succ]
    omega
  · have hk : (((m + ((2 ^ E : ℕ) : ℤ)).toNat : ℕ) : K) = (m : K) + 2 ^ E := by
      have h3 : (((m + ((2 ^ E : ℕ) : ℤ)).toNat : ℕ) : ℤ) = m + ((2 ^ E : ℕ) : ℤ) := by omega
      have h4 : ((((m + ((2 ^ E : ℕ) : ℤ)).toNat : ℕ) : ℤ) : K) = ((m + ((2 ^ E : ℕ) : ℤ) : ℤ) : K) := by rw [h3]
      push_cast at h4
      exact_mod_cast h4
    rw [hk, hpa, pow_succ]
    ring

/-- **C42 (depth of a new octree).** It is at least 2, so the new octree satisfies the hypotheses of C41. -/
theorem C42_from_points_good (vs : K) (hvs : 0 < vs) (points : List (Fin 3 → K)) (hne : points ≠ [])
    (minC maxC : K) (hmm : minC ≤ maxC) : GoodOctree (OctVox.fromPoints vs points minC maxC) := by
  have hwf : ∀ (n : ℕ) (pts : List (Fin 3 → K)) (c : Fin 3 → K), WF n (subdivide vs n pts c) := by
    intro n
    induction n with
    | zero => intro pts c; exact ⟨_, rfl⟩
    | succ n ih =>
      intro pts c
      rw [subdivide]
      dsimp only
      split_ifs
      · exact Or.inl rfl
      · refine Or.inr ⟨_, rfl, fun i => ?_⟩
        split_ifs
        · exact WF_empty n
        · exact ih _ _
  refine ⟨rfl, ?_, hvs, hwf _ _ _⟩
  show 0 < octreeDepth vs minC maxC
  unfold octreeDepth
  apply Nat.clog_pos (by norm_num)
  have hfg : ⌊minC / vs⌋ ≤ ⌊maxC / vs⌋ := Int.floor_le_floor (div_le_div_of_nonneg_right hmm hvs.le)
  have h1 : (2 : ℤ) ≤ ⌊max |((⌊minC / vs⌋ : K) - 2) * vs| |((⌊maxC / vs⌋ : K) + 2) * vs| * 2 / vs⌋ := by
    rw [Int.le_floor, le_div_iff₀ hvs]
    rcases le_or_gt 0 ⌊maxC / vs⌋ with h | h
    · have h2 : (0 : K) ≤ ⌊maxC / vs⌋ := by exact_mod_cast h
      have h3 := le_trans (le_abs_self _) (le_max_right |((⌊minC / vs⌋ : K) - 2) * vs| |((⌊maxC / vs⌋ : K) + 2) * vs|)
      push_cast
      nlinarith
    · have h2 : ((⌊minC / vs⌋ : ℤ) : K) < 0 := by exact_mod_cast lt_of_le_of_lt hfg h
      have h3 := le_trans (neg_le_abs _) (le_max_left |((⌊minC / vs⌋ : K) - 2) * vs| |((⌊maxC / vs⌋ : K) + 2) * vs|)
      push_cast
      nlinarith
  omega

/-- Two voxels of the implicit grid of size `1/2`. -/
example : ∀ p ∈ [![1/4, 3/4, -1/4], ![-5/4, 1/4, 1/4]], inImplicitGrid (1 / 2 : ℚ) p := by
  intro p hp i
  simp only [List.mem_cons, List.not_mem_nil, or_false] at hp
  rcases hp with rfl | rfl <;> fin_cases i
  · exact ⟨0, by norm_num⟩
  · exact ⟨1, by norm_num⟩
  · exact ⟨-1, by norm_num⟩
  · exact ⟨-3, by norm_num⟩
  · exact ⟨0, by norm_num⟩
  · exact ⟨0, by norm_num⟩

end Volmdlr
