import Verif.Voxel.CombinationModel
import Verif.Voxel.OctreeTriangles

/-!
# C140: overlapping octrees
-/

namespace Volmdlr
open Voxel

variable {K : Type} [Field K] [LinearOrder K] [IsStrictOrderedRing K] [FloorRing K]

/-! ## Specification -/

/-- **Specification.** The point is in the voxel of the given centre and size, not on its border. -/
def InsideVoxel (size : K) (q p : Fin 3 → K) : Prop := ∀ i, q i - size / 2 < p i ∧ p i < q i + size / 2

/-- **Specification.** Two sets of voxels share a point that is not on the border of the voxels. -/
def VoxelsOverlap (size1 size2 : K) (s1 s2 : Set (Fin 3 → K)) : Prop :=
  ∃ q1 ∈ s1, ∃ q2 ∈ s2, ∃ p, InsideVoxel size1 q1 p ∧ InsideVoxel size2 q2 p

namespace Voxel

lemma axis_overlap (a b c d : K) (hab : a < b) (hcd : c < d) : max a c < min b d ↔ ∃ x, (a < x ∧ x < b) ∧ (c < x ∧ x < d) := by
  constructor
  · intro h
    obtain ⟨x, h1, h2⟩ := exists_between h
    rw [max_lt_iff] at h1
    rw [lt_min_iff] at h2
    exact ⟨x, ⟨h1.1, h2.1⟩, h1.2, h2.2⟩
  · rintro ⟨x, ⟨h1, h2⟩, h3, h4⟩
    exact (max_lt h1 h3).trans (lt_min h2 h4)

lemma voxelsOverlap_iff {s1 s2 : K} (h1 : 0 < s1) (h2 : 0 < s2) (c1 c2 : Fin 3 → K) :
    voxelsOverlap c1 (s1 / 2) c2 (s2 / 2) = true ↔ ∃ p, InsideVoxel s1 c1 p ∧ InsideVoxel s2 c2 p := by
  unfold voxelsOverlap
  rw [Bool.and_eq_true, Bool.and_eq_true, decide_eq_true_iff, decide_eq_true_iff, decide_eq_true_iff]
  have ax : ∀ i, max (c1 i - s1 / 2) (c2 i - s2 / 2) < min (c1 i + s1 / 2) (c2 i + s2 / 2) ↔
      ∃ x, (c1 i - s1 / 2 < x ∧ x < c1 i + s1 / 2) ∧ (c2 i - s2 / 2 < x ∧ x < c2 i + s2 / 2) :=
    fun i => axis_overlap _ _ _ _ (by linarith) (by linarith)
  rw [ax, ax, ax]
  constructor
  · rintro ⟨⟨⟨x, hx⟩, ⟨y, hy⟩⟩, ⟨z, hz⟩⟩
    refine ⟨![x, y, z], fun i => ?_, fun i => ?_⟩
    · have hi : i = 0 ∨ i = 1 ∨ i = 2 := by fin_cases i <;> simp
      rcases hi with rfl | rfl | rfl
      · exact hx.1
      · exact hy.1
      · exact hz.1
    · have hi : i = 0 ∨ i = 1 ∨ i = 2 := by fin_cases i <;> simp
      rcases hi with rfl | rfl | rfl
      · exact hx.2
      · exact hy.2
      · exact hz.2
  · rintro ⟨p, hp, hp'⟩
    exact ⟨⟨⟨p 0, hp 0, hp' 0⟩, ⟨p 1, hp 1, hp' 1⟩⟩, ⟨p 2, hp 2, hp' 2⟩⟩

/-- The leaves under an entry of a stack. -/
def StackVoxel.leaves (vs : K) (s : StackVoxel K) : Set (Fin 3 → K) := leafCentres s.below (vs * 2 ^ s.below) s.centre s.octree

/-- The entries that the loop makes. -/
def StackVoxel.Good (s : StackVoxel K) : Prop := WF s.below s.octree ∧ s.octree.truthy = true

lemma leaves_bound {vs : K} (hvs : 0 < vs) {s : StackVoxel K} (hs : s.Good) {q : Fin 3 → K} (hq : q ∈ s.leaves vs) {p : Fin 3 → K}
    (hp : InsideVoxel vs q p) : InsideVoxel (vs * 2 ^ s.below) s.centre p := by
  unfold StackVoxel.leaves at hq
  rw [leafCentres_has _ _ _ _ (Or.inr hs.2)] at hq
  obtain ⟨path, h1, rfl⟩ := hq
  have hg := path_onGrid vs s.below s.centre path (has_length _ _ _ h1)
  intro i
  obtain ⟨k, hk, he⟩ := hg i
  have hpi := hp i
  rw [he] at hpi
  have hk1 : (k : K) + 1 ≤ 2 ^ s.below := by exact_mod_cast hk
  have hk0 : (0 : K) ≤ k := Nat.cast_nonneg k
  generalize (2 : K) ^ s.below = w at *
  constructor
  · nlinarith [hpi.1]
  · nlinarith [hpi.2]

lemma split_spec {vs : K} {s : StackVoxel K} (hs : s.Good) :
    ∃ l, splitVoxel vs s = some l ∧ (∀ x ∈ l, x.Good ∧ x.below ≤ s.below ∧ (0 < s.below → x.below < s.below)) ∧
      (∀ q, q ∈ s.leaves vs ↔ ∃ x ∈ l, q ∈ x.leaves vs) := by
  obtain ⟨n, c, t⟩ := s
  cases n with
  | zero =>
    refine ⟨[⟨0, c, t⟩], rfl, fun x hx => ?_, fun q => by simp⟩
    rw [List.mem_singleton.1 hx]
    exact ⟨hs, le_rfl, fun h => h⟩
  | succ n =>
    obtain ⟨hwf, ht⟩ := hs
    dsimp only at hwf ht
    rcases hwf with rfl | ⟨ch, rfl, hch⟩
    · cases ht
    have hmem : ∀ x : StackVoxel K, x ∈ (List.finRange 8).filterMap (fun i : Fin 8 =>
        if (ch i).truthy then some (⟨n, childCentre (vs * 2 ^ n) c i, ch i⟩ : StackVoxel K) else none) ↔
          ∃ i, (ch i).truthy = true ∧ x = ⟨n, childCentre (vs * 2 ^ n) c i, ch i⟩ := by
      intro x
      rw [List.mem_filterMap]
      constructor
      · rintro ⟨i, _, h⟩
        split_ifs at h with h1
        exact ⟨i, h1, (Option.some.inj h).symm⟩
      · rintro ⟨i, h1, rfl⟩
        exact ⟨i, List.mem_finRange i, by rw [if_pos h1]⟩
    refine ⟨_, rfl, fun x hx => ?_, fun q => ?_⟩
    · obtain ⟨i, h1, rfl⟩ := (hmem x).1 hx
      exact ⟨⟨hch i, h1⟩, Nat.le_succ n, fun _ => Nat.lt_succ_self n⟩
    · have hsz : vs * 2 ^ (n + 1) / 2 = vs * 2 ^ n := by rw [pow_succ]; ring
      constructor
      · intro hq
        unfold StackVoxel.leaves at hq
        rw [leafCentres, Set.mem_ofPred_eq, hsz] at hq
        obtain ⟨i, h1, h2⟩ := hq
        exact ⟨_, (hmem _).2 ⟨i, h1, rfl⟩, h2⟩
      · rintro ⟨x, hx, hq⟩
        obtain ⟨i, h1, rfl⟩ := (hmem x).1 hx
        unfold StackVoxel.leaves
        rw [leafCentres, Set.mem_ofPred_eq, hsz]
        exact ⟨i, h1, hq⟩

/-- What the loop does with the pairs at the top of the stack: it stops with `True` if leaves of a pair overlap, otherwise it goes on
with the rest. -/
def Treats (vs1 vs2 : K) (l : List (StackVoxel K × StackVoxel K)) : Prop :=
  ((∃ e ∈ l, VoxelsOverlap vs1 vs2 (e.1.leaves vs1) (e.2.leaves vs2)) →
    ∃ f, ∀ g rest, overlapLoop vs1 vs2 (f + g) (l ++ rest) = some (.ok true)) ∧
  ((¬ ∃ e ∈ l, VoxelsOverlap vs1 vs2 (e.1.leaves vs1) (e.2.leaves vs2)) →
    ∃ f, ∀ g rest, overlapLoop vs1 vs2 (f + g) (l ++ rest) = overlapLoop vs1 vs2 g rest)

lemma treats_list {vs1 vs2 : K} (l : List (StackVoxel K × StackVoxel K)) (h : ∀ e ∈ l, Treats vs1 vs2 [e]) : Treats vs1 vs2 l := by
  induction l with
  | nil =>
    refine ⟨fun ⟨e, he, _⟩ => (by cases he), fun _ => ⟨0, fun g rest => by rw [Nat.zero_add]; rfl⟩⟩
  | cons e l ih =>
    have ihl := ih fun x hx => h x (List.mem_cons_of_mem _ hx)
    have he := h e List.mem_cons_self
    by_cases hov : VoxelsOverlap vs1 vs2 (e.1.leaves vs1) (e.2.leaves vs2)
    · refine ⟨fun _ => ?_, fun hn => absurd ⟨e, List.mem_cons_self, hov⟩ hn⟩
      obtain ⟨f, hf⟩ := he.1 ⟨e, List.mem_singleton.2 rfl, hov⟩
      exact ⟨f, fun g rest => hf g (l ++ rest)⟩
    · obtain ⟨f, hf⟩ := he.2 (by
        rintro ⟨x, hx, hox⟩
        rw [List.mem_singleton.1 hx] at hox
        exact hov hox)
      have hiff : (∃ x ∈ e :: l, VoxelsOverlap vs1 vs2 (x.1.leaves vs1) (x.2.leaves vs2)) ↔
          ∃ x ∈ l, VoxelsOverlap vs1 vs2 (x.1.leaves vs1) (x.2.leaves vs2) := by
        constructor
        · rintro ⟨x, hx, hox⟩
          rcases List.mem_cons.1 hx with rfl | hx
          · exact absurd hox hov
          · exact ⟨x, hx, hox⟩
        · rintro ⟨x, hx, hox⟩
          exact ⟨x, List.mem_cons_of_mem _ hx, hox⟩
      refine ⟨fun hx => ?_, fun hx => ?_⟩
      · obtain ⟨f', hf'⟩ := ihl.1 (hiff.1 hx)
        exact ⟨f + f', fun g rest => by rw [Nat.add_assoc]; exact (hf (f' + g) (l ++ rest)).trans (hf' g rest)⟩
      · obtain ⟨f', hf'⟩ := ihl.2 (fun hy => hx (hiff.2 hy))
        exact ⟨f + f', fun g rest => by rw [Nat.add_assoc]; exact (hf (f' + g) (l ++ rest)).trans (hf' g rest)⟩

lemma treats_pair {vs1 vs2 : K} (h1 : 0 < vs1) (h2 : 0 < vs2) (m : ℕ) :
    ∀ a b : StackVoxel K, a.below + b.below = m → a.Good → b.Good → Treats vs1 vs2 [(a, b)] := by
  induction m using Nat.strong_induction_on with
  | _ m ih =>
    intro a b hm ha hb
    have hsing : (∃ e ∈ [(a, b)], VoxelsOverlap vs1 vs2 (e.1.leaves vs1) (e.2.leaves vs2)) ↔ VoxelsOverlap vs1 vs2 (a.leaves vs1) (b.leaves vs2) := by
      constructor
      · rintro ⟨e, he, h⟩
        rw [List.mem_singleton.1 he] at h
        exact h
      · intro h
        exact ⟨_, List.mem_singleton.2 rfl, h⟩
    have hcube : voxelsOverlap a.centre (vs1 * 2 ^ a.below / 2) b.centre (vs2 * 2 ^ b.below / 2) = true ↔
        ∃ p, InsideVoxel (vs1 * 2 ^ a.below) a.centre p ∧ InsideVoxel (vs2 * 2 ^ b.below) b.centre p :=
      voxelsOverlap_iff (by positivity) (by positivity) _ _
    by_cases hov : voxelsOverlap a.centre (vs1 * 2 ^ a.below / 2) b.centre (vs2 * 2 ^ b.below / 2) = false
    · have hno : ¬ VoxelsOverlap vs1 vs2 (a.leaves vs1) (b.leaves vs2) := by
        rintro ⟨q1, hq1, q2, hq2, p, hp1, hp2⟩
        rw [hcube.2 ⟨p, leaves_bound h1 ha hq1 hp1, leaves_bound h2 hb hq2 hp2⟩] at hov
        cases hov
      refine ⟨fun h => absurd (hsing.1 h) hno, fun _ => ⟨1, fun g rest => ?_⟩⟩
      rw [Nat.add_comm]
      show overlapLoop vs1 vs2 (g + 1) ((a, b) :: rest) = _
      rw [overlapLoop, if_pos hov]
    · rw [Bool.not_eq_false] at hov
      by_cases hz : a.below = 0 ∧ b.below = 0
      · have hyes : VoxelsOverlap vs1 vs2 (a.leaves vs1) (b.leaves vs2) := by
          obtain ⟨p, hp1, hp2⟩ := hcube.1 hov
          rw [hz.1, pow_zero, mul_one] at hp1
          rw [hz.2, pow_zero, mul_one] at hp2
          refine ⟨a.centre, ?_, b.centre, ?_, p, hp1, hp2⟩
          · unfold StackVoxel.leaves; rw [hz.1]; rfl
          · unfold StackVoxel.leaves; rw [hz.2]; rfl
        refine ⟨fun _ => ⟨1, fun g rest => ?_⟩, fun h => absurd (hsing.2 hyes) h⟩
        rw [Nat.add_comm]
        show overlapLoop vs1 vs2 (g + 1) ((a, b) :: rest) = _
        rw [overlapLoop, if_neg (by rw [hov]; simp), if_pos hz]
      · obtain ⟨as, has, hasG, hasL⟩ := split_spec (vs := vs1) ha
        obtain ⟨bs, hbs, hbsG, hbsL⟩ := split_spec (vs := vs2) hb
        set L := (as.flatMap fun x : StackVoxel K => bs.map fun y : StackVoxel K => (x, y)).reverse with hL
        have hmem : ∀ x y, (x, y) ∈ L ↔ x ∈ as ∧ y ∈ bs := by
          intro x y
          rw [hL, List.mem_reverse, List.mem_flatMap]
          constructor
          · rintro ⟨z, hz, h⟩
            obtain ⟨w, hw, he⟩ := List.mem_map.1 h
            cases he
            exact ⟨hz, hw⟩
          · rintro ⟨hx, hy⟩
            exact ⟨x, hx, List.mem_map.2 ⟨y, hy, rfl⟩⟩
        have hT : Treats vs1 vs2 L := by
          apply treats_list
          rintro ⟨x, y⟩ hxy
          obtain ⟨hx, hy⟩ := (hmem x y).1 hxy
          obtain ⟨gx, lx, sx⟩ := hasG x hx
          obtain ⟨gy, ly, sy⟩ := hbsG y hy
          refine ih (x.below + y.below) ?_ x y rfl gx gy
          rcases Nat.eq_zero_or_pos a.below with h0 | h0
          · have := sy (by omega)
            omega
          · have := sx h0
            omega
        have hiff : (∃ e ∈ L, VoxelsOverlap vs1 vs2 (e.1.leaves vs1) (e.2.leaves vs2)) ↔ VoxelsOverlap vs1 vs2 (a.leaves vs1) (b.leaves vs2) := by
          constructor
          · rintro ⟨⟨x, y⟩, hxy, q1, hq1, q2, hq2, hp⟩
            obtain ⟨hx, hy⟩ := (hmem x y).1 hxy
            exact ⟨q1, (hasL q1).2 ⟨x, hx, hq1⟩, q2, (hbsL q2).2 ⟨y, hy, hq2⟩, hp⟩
          · rintro ⟨q1, hq1, q2, hq2, hp⟩
            obtain ⟨x, hx, hq1⟩ := (hasL q1).1 hq1
            obtain ⟨y, hy, hq2⟩ := (hbsL q2).1 hq2
            exact ⟨(x, y), (hmem x y).2 ⟨hx, hy⟩, q1, hq1, q2, hq2, hp⟩
        have hstep : ∀ g rest, overlapLoop vs1 vs2 (g + 1) ((a, b) :: rest) = overlapLoop vs1 vs2 g (L ++ rest) := by
          intro g rest
          rw [overlapLoop, if_neg (by rw [hov]; simp), if_neg hz, has, hbs]
        refine ⟨fun h => ?_, fun h => ?_⟩
        · obtain ⟨f, hf⟩ := hT.1 (hiff.2 (hsing.1 h))
          refine ⟨f + 1, fun g rest => ?_⟩
          rw [Nat.add_right_comm]
          exact (hstep _ _).trans (hf g rest)
        · obtain ⟨f, hf⟩ := hT.2 (fun h' => h (hsing.2 (hiff.1 h')))
          refine ⟨f + 1, fun g rest => ?_⟩
          rw [Nat.add_right_comm]
          exact (hstep _ _).trans (hf g rest)

end Voxel

/-- **C140.** For any two octrees that are not the empty list, of any depths, sizes and positions, `is_intersecting` ends without an
`IndexError`, and it is true exactly if a voxel of the first and a voxel of the second share a point that is not on their borders. -/
theorem C140_is_intersecting (v w : OctVox K) (hv : WF v.depth v.octree) (hw : WF w.depth w.octree) (hv0 : 0 < v.size) (hw0 : 0 < w.size)
    (hvt : v.octree.truthy = true) (hwt : w.octree.truthy = true) :
    ∃ fuel b, (∀ fuel', fuel ≤ fuel' → v.isIntersecting fuel' w = some (.ok b)) ∧
      (b = true ↔ VoxelsOverlap v.size w.size v.centres w.centres) := by
  have hT := treats_pair hv0 hw0 _ ⟨v.depth, v.rootC, v.octree⟩ ⟨w.depth, w.rootC, w.octree⟩ rfl ⟨hv, hvt⟩ ⟨hw, hwt⟩
  by_cases hov : VoxelsOverlap v.size w.size v.centres w.centres
  · obtain ⟨f, hf⟩ := hT.1 ⟨_, List.mem_singleton.2 rfl, hov⟩
    refine ⟨f, true, fun fuel' hle => ?_, fun _ => hov, fun _ => rfl⟩
    obtain ⟨g, rfl⟩ := Nat.exists_eq_add_of_le hle
    exact hf g []
  · obtain ⟨f, hf⟩ := hT.2 (by
      rintro ⟨e, he, h⟩
      rw [List.mem_singleton.1 he] at h
      exact hov h)
    refine ⟨f, false, fun fuel' hle => ?_, fun h => (by cases h), fun h => absurd h hov⟩
    obtain ⟨g, rfl⟩ := Nat.exists_eq_add_of_le hle
    refine (hf g []).trans ?_
    cases g <;> rfl

/-- **C140 (same size).** For octrees of triangles of the same voxel size `is_intersecting` is true exactly if they have a common
voxel, that is if their intersection is not empty. -/
theorem C140_same_grid (l l' : List (Tri3 K)) (hl : l ≠ []) (hl' : l' ≠ []) {vs : K} (hvs : 0 < vs) :
    ∃ v w, OctVox.fromTriangles l vs = .ok v ∧ OctVox.fromTriangles l' vs = .ok w ∧
      (v.centres.Nonempty → w.centres.Nonempty →
        ∃ fuel b, (∀ fuel', fuel ≤ fuel' → v.isIntersecting fuel' w = some (.ok b)) ∧ (b = true ↔ (v.centres ∩ w.centres).Nonempty)) := by
  obtain ⟨v, v1, v2⟩ := C138_octree_no_far_voxels l hl hvs
  obtain ⟨w, w1, w2⟩ := C138_octree_no_far_voxels l' hl' hvs
  obtain ⟨v', v1', v3, _⟩ := C138_octree_good l hl hvs
  obtain ⟨w', w1', w3, _⟩ := C138_octree_good l' hl' hvs
  obtain ⟨v'', v1'', v4, _⟩ := C138_octree_never_misses l hl hvs
  obtain ⟨w'', w1'', w4, _⟩ := C138_octree_never_misses l' hl' hvs
  have e1 : v' = v := by have := v1'.symm.trans v1; injection this
  have e2 : w' = w := by have := w1'.symm.trans w1; injection this
  have e3 : v'' = v := by have := v1''.symm.trans v1; injection this
  have e4 : w'' = w := by have := w1''.symm.trans w1; injection this
  subst e1 e2 e3 e4
  refine ⟨_, _, v1, w1, fun hvn hwn => ?_⟩
  have truthy : ∀ u : OctVox K, GoodOctree u → u.centres.Nonempty → u.octree.truthy = true := by
    intro u hu ⟨q, hq⟩
    unfold OctVox.centres at hq
    rw [leafCentres_has _ _ _ _ (Or.inl hu.depth)] at hq
    obtain ⟨p, hp, _⟩ := hq
    by_contra hn
    rw [has_of_not_truthy _ _ (by simpa using hn)] at hp
    cases hp
  obtain ⟨fuel, b, hf, hb⟩ := C140_is_intersecting _ _ v3.wf w3.wf v3.size w3.size (truthy _ v3 hvn) (truthy _ w3 hwn)
  refine ⟨fuel, b, hf, hb.trans ?_⟩
  rw [v4, w4]
  constructor
  · rintro ⟨q1, hq1, q2, hq2, p, hp1, hp2⟩
    obtain ⟨k1, rfl, _⟩ := v2 q1 hq1
    obtain ⟨k2, rfl, _⟩ := w2 q2 hq2
    have hk : k1 = k2 := by
      funext i
      have a1 := hp1 i
      have a2 := hp2 i
      unfold voxelCentre at a1 a2
      have b1 : (k1 i : K) * vs < (k2 i + 1) * vs := by linarith [a1.1, a2.2]
      have b2 : (k2 i : K) * vs < (k1 i + 1) * vs := by linarith [a2.1, a1.2]
      have c1 : (k1 i : K) < k2 i + 1 := lt_of_mul_lt_mul_right b1 hvs.le
      have c2 : (k2 i : K) < k1 i + 1 := lt_of_mul_lt_mul_right b2 hvs.le
      have d1 : k1 i < k2 i + 1 := by exact_mod_cast c1
      have d2 : k2 i < k1 i + 1 := by exact_mod_cast c2
      omega
    subst hk
    exact ⟨_, hq1, hq2⟩
  · rintro ⟨q, hq1, hq2⟩
    exact ⟨q, hq1, q, hq2, q, fun i => ⟨by linarith, by linarith⟩, fun i => ⟨by linarith, by linarith⟩⟩

/-- Two octrees of one voxel each, of different sizes. -/
example : VoxelsOverlap (1 : ℚ) 2 {![0, 0, 0]} {![1, 1, 1]} := by
  refine ⟨_, rfl, _, rfl, ![1 / 4, 1 / 4, 1 / 4], fun i => ?_, fun i => ?_⟩ <;> fin_cases i <;> norm_num

end Volmdlr
