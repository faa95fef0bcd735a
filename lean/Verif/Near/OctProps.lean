import Verif.Near.Model
import Verif.BBox.Props
import Verif.Search.GroupProps

/-!
# C200: decomposition of a list of faces in the octants of a box
-/

namespace Volmdlr.Near

variable {K F : Type*} [Field K] [LinearOrder K] [IsStrictOrderedRing K]

lemma flatMap_nonempty {α : Type*} (l : List (α × List F)) : (l.filter fun g : α × List F => !g.2.isEmpty).flatMap Prod.snd = l.flatMap Prod.snd := by
  induction l with
  | nil => rfl
  | cons g l ih =>
    rw [List.filter_cons, List.flatMap_cons]
    split_ifs with h
    · rw [List.flatMap_cons, ih]
    · have : g.2 = [] := by simpa using h
      rw [ih, this, List.nil_append]

lemma firstOctant_spec (octants : List (Box3 K)) (c : V3 K) :
    ((firstOctant octants c).isSome = true ↔ ∃ o ∈ octants, o.pointBelongs c = true) ∧
    ∀ k, firstOctant octants c = some k → ∃ o, octants[k]? = some o ∧ o.pointBelongs c = true := by
  unfold firstOctant
  constructor
  · rw [List.findIdx?_isSome, List.any_eq_true]
  · intro k hk
    rw [List.findIdx?_eq_some_iff_getElem] at hk
    obtain ⟨h1, h2, -⟩ := hk
    exact ⟨_, List.getElem?_eq_getElem h1, h2⟩

/-- A point of the box is in an octant, as `point_belongs` tells. -/
lemma octant_of_mem (bbox : Box3 K) (hb : bbox.Valid) (c : V3 K) (hc : bbox.Mem c) : ∃ o ∈ bbox.octree, o.pointBelongs c = true := by
  obtain ⟨-, -, h, -, -⟩ := C17_octree_partition bbox hb
  obtain ⟨o, ho, h1, h2, h3, h4, h5, h6⟩ := h c hc
  have ht : (0 : K) ≤ 1 / 10 ^ 6 := by positivity
  refine ⟨o, ho, ?_⟩
  unfold Box3.pointBelongs
  simp only [Bool.and_eq_true, decide_eq_true_eq]
  exact ⟨⟨⟨⟨⟨by linarith, by linarith⟩, by linarith⟩, by linarith⟩, by linarith⟩, by linarith⟩

/-- **C200** the groups are not empty, each goes with an octant of the box that has (up to 1e-6) the centres of the boxes of its faces; and they share out, each once, the faces whose centre
is (up to 1e-6) in an octant. -/
theorem C200_groups (bbox : Box3 K) (center : F → V3 K) (faces : List F) :
    (∀ g ∈ octreeDecomposition bbox center faces, g.1 ∈ bbox.octree ∧ g.2 ≠ [] ∧ ∀ f ∈ g.2, f ∈ faces ∧ g.1.pointBelongs (center f) = true) ∧
    ((octreeDecomposition bbox center faces).flatMap Prod.snd).Perm (faces.filter fun f : F => bbox.octree.any fun o : Box3 K => o.pointBelongs (center f)) := by
  constructor
  · intro g hg
    unfold octreeDecomposition at hg
    rw [List.mem_filter, List.mem_map] at hg
    obtain ⟨⟨⟨o, k⟩, hk, rfl⟩, hne⟩ := hg
    rw [List.mem_zipIdx_iff_getElem?] at hk
    dsimp only at hk hne ⊢
    refine ⟨List.mem_of_getElem? hk, by simpa using hne, fun f hf => ?_⟩
    obtain ⟨h1, h2⟩ := List.mem_filter.mp hf
    obtain ⟨o', ho', hp⟩ := (firstOctant_spec _ _).2 k (of_decide_eq_true h2)
    rw [hk] at ho'
    cases ho'
    exact ⟨h1, hp⟩
  · unfold octreeDecomposition
    rw [flatMap_nonempty, List.flatMap_map]
    dsimp only
    have e1 : (bbox.octree.zipIdx.flatMap fun ok : Box3 K × ℕ => faces.filter fun f : F => decide (firstOctant bbox.octree (center f) = some ok.2)) =
        ((bbox.octree.zipIdx.map Prod.snd).map some).flatMap fun k : Option ℕ => (faces.filter fun f : F => bbox.octree.any fun o : Box3 K => o.pointBelongs (center f)).filter
          fun f : F => decide (firstOctant bbox.octree (center f) = k) := by
      rw [List.map_map, List.flatMap_map]
      refine List.flatMap_congr fun ok _ => ?_
      rw [List.filter_filter]
      refine List.filter_congr fun f _ => ?_
      rw [Bool.eq_iff_iff, Bool.and_eq_true, decide_eq_true_eq, decide_eq_true_eq, List.any_eq_true]
      constructor
      · intro h; exact ⟨h, ((firstOctant_spec _ _).1).mp (by rw [h]; rfl)⟩
      · rintro ⟨h, -⟩; exact h
    rw [e1, List.zipIdx_map_snd]
    refine Search.flatMap_filter_perm (fun f : F => firstOctant bbox.octree (center f)) _ _ ?_ ?_
    · exact (List.nodup_range' (s := 0) (n := bbox.octree.length)).map (Option.some_injective ℕ)
    · intro f hf
      have := (List.mem_filter.mp hf).2
      rw [List.any_eq_true, ← (firstOctant_spec _ _).1, Option.isSome_iff_exists] at this
      obtain ⟨k, hk⟩ := this
      refine List.mem_map.mpr ⟨k, ?_, hk.symm⟩
      obtain ⟨o, ho, -⟩ := (firstOctant_spec _ _).2 k hk
      have := (List.getElem?_eq_some_iff.mp ho).1
      rw [List.mem_range'_1]; omega

/-- **C200** when the boxes of the faces are in the box, no face is lost or counted twice. -/
theorem C200_kept (bbox : Box3 K) (hb : bbox.Valid) (box : F → Box3 K) (faces : List F) (h : ∀ f ∈ faces, (box f).Valid ∧ (box f).Subset bbox) :
    ((octreeDecomposition bbox (fun f => (box f).center) faces).flatMap Prod.snd).Perm faces := by
  have e : (faces.filter fun f : F => bbox.octree.any fun o : Box3 K => o.pointBelongs (box f).center) = faces := by
    rw [List.filter_eq_self]
    intro f hf
    rw [List.any_eq_true]
    refine octant_of_mem bbox hb _ ((h f hf).2 _ ?_)
    obtain ⟨h1, h2, h3⟩ := (h f hf).1
    unfold Box3.center
    refine ⟨?_, ?_, ?_, ?_, ?_, ?_⟩ <;> dsimp only <;> linarith
  have := (C200_groups bbox (fun f => (box f).center) faces).2
  rwa [e] at this

/-- **C200** a face whose centre is not, up to 1e-6, in the box is lost. -/
theorem C200_lost (bbox : Box3 K) (hb : bbox.Valid) (center : F → V3 K) (faces : List F) (f : F) (hf : bbox.pointBelongs (center f) = false) :
    f ∉ (octreeDecomposition bbox center faces).flatMap Prod.snd := by
  intro hm
  rw [(C200_groups bbox center faces).2.mem_iff] at hm
  obtain ⟨o, ho, hp⟩ := List.any_eq_true.mp (List.mem_filter.mp hm).2
  obtain ⟨-, hsub, -⟩ := C17_octree_partition bbox hb
  obtain ⟨hv, hs⟩ := hsub o ho
  obtain ⟨s1, s2, s3, s4, s5, s6⟩ := (Box3.subset_iff hv).mp hs
  unfold Box3.pointBelongs at hp hf
  simp only [Bool.and_eq_true, decide_eq_true_eq] at hp
  obtain ⟨⟨⟨⟨⟨p1, p2⟩, p3⟩, p4⟩, p5⟩, p6⟩ := hp
  rw [Bool.eq_false_iff] at hf
  apply hf
  simp only [Bool.and_eq_true, decide_eq_true_eq]
  exact ⟨⟨⟨⟨⟨by linarith, by linarith⟩, by linarith⟩, by linarith⟩, by linarith⟩, by linarith⟩

/-- The hypotheses of C200 are met, and several groups come out: a face that straddles the octants is in the first one. -/
example : (⟨0, 4, 0, 4, 0, 4⟩ : Box3 ℚ).Valid ∧ (∀ f ∈ [(⟨0, 4, 0, 4, 0, 0⟩ : Box3 ℚ), ⟨3, 4, 3, 4, 3, 4⟩], f.Valid ∧ f.Subset ⟨0, 4, 0, 4, 0, 4⟩) ∧
    (octreeDecomposition (⟨0, 4, 0, 4, 0, 4⟩ : Box3 ℚ) Box3.center [⟨0, 4, 0, 4, 0, 0⟩, ⟨3, 4, 3, 4, 3, 4⟩]).map Prod.snd = [[⟨0, 4, 0, 4, 0, 0⟩], [⟨3, 4, 3, 4, 3, 4⟩]] := by
  refine ⟨by unfold Box3.Valid; norm_num, ?_, by decide +kernel⟩
  intro f hf
  simp only [List.mem_cons, List.not_mem_nil, or_false] at hf
  rcases hf with rfl | rfl <;> refine ⟨by unfold Box3.Valid; norm_num, (Box3.subset_iff (by unfold Box3.Valid; norm_num)).mpr (by norm_num)⟩

end Volmdlr.Near
