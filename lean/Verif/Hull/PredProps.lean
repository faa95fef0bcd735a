import Verif.Hull.PredModel
import Verif.Hull.PolyProps

/-!
# `ClosedPolygon2D.self_intersects` and `polygon_distance` (wires.py:3159-3226, 3043-3050)
-/

namespace Volmdlr.Hull

section
variable {K : Type} [Field K] [LinearOrder K] [IsStrictOrderedRing K]

lemma sortedIndex_perm (pts : List (V2 K)) : (sortedIndex pts).Perm (List.range pts.length) := List.perm_insertionSort _ _

lemma sortedIndex_length (pts : List (V2 K)) : (sortedIndex pts).length = pts.length := by
  rw [(sortedIndex_perm pts).length_eq, List.length_range]

lemma keyLe_trans (pts : List (V2 K)) (a b c : ℕ) : keyLe pts a b = true → keyLe pts b c = true → keyLe pts a c = true := by
  unfold keyLe
  simp only [decide_eq_true_eq]
  rintro (h | ⟨h, h'⟩) (g | ⟨g, g'⟩)
  · exact Or.inl (h.trans g)
  · exact Or.inl (g ▸ h)
  · exact Or.inl (h ▸ g)
  · exact Or.inr ⟨h.trans g, h'.trans g'⟩

lemma keyLe_total (pts : List (V2 K)) (a b : ℕ) : (keyLe pts a b || keyLe pts b a) = true := by
  unfold keyLe
  simp only [Bool.or_eq_true, decide_eq_true_eq]
  rcases lt_trichotomy (pts.getD a ⟨0, 0⟩).x (pts.getD b ⟨0, 0⟩).x with h | h | h
  · exact Or.inl (Or.inl h)
  · rcases le_total (pts.getD a ⟨0, 0⟩).y (pts.getD b ⟨0, 0⟩).y with g | g
    · exact Or.inl (Or.inr ⟨h, g⟩)
    · exact Or.inr (Or.inr ⟨h.symm, g⟩)
  · exact Or.inr (Or.inl h)

lemma sortedIndex_sorted (pts : List (V2 K)) : (sortedIndex pts).Pairwise fun i j => keyLe pts i j = true := by
  haveI : Std.Total fun i j => keyLe pts i j = true := ⟨fun a b => by have := keyLe_total pts a b; simpa using this⟩
  haveI : IsTrans ℕ fun i j => keyLe pts i j = true := ⟨keyLe_trans pts⟩
  exact List.pairwise_insertionSort _ _

/-- The segments added at the successive positions. -/
lemma segmentsFrom_ok (n : ℕ) (sorted : List ℕ) : ∀ (rest : List ℕ) (i : ℕ) (segs : List (ℕ × ℕ)), segmentsFrom n sorted i rest = .ok segs →
    ∀ (j : ℕ) (index : ℕ), rest[j]? = some index → ∃ two, segmentsAt n sorted (i + j) index = .ok two ∧ ∀ s ∈ two, s ∈ segs := by
  intro rest
  induction rest with
  | nil => intro i segs _ j index h; simp at h
  | cons a rest ih =>
    intro i segs h j index hj
    unfold segmentsFrom at h
    split at h
    · cases h
    · rename_i two htwo
      split at h
      · cases h
      · rename_i more hmore
        obtain rfl := Except.ok.inj h
        rcases j with _ | j
        · simp at hj
          subst hj
          exact ⟨two, htwo, fun s hs => List.mem_append_left _ hs⟩
        · simp at hj
          obtain ⟨t, h1, h2⟩ := ih (i + 1) more hmore j index hj
          refine ⟨t, by rw [← h1]; congr 1; omega, fun s hs => List.mem_append_right _ (h2 s hs)⟩

lemma segmentsFrom_error (n : ℕ) (sorted : List ℕ) : ∀ (rest : List ℕ) (i : ℕ) (e : PyErr), segmentsFrom n sorted i rest = .error e →
    ∃ (j : ℕ) (index : ℕ), rest[j]? = some index ∧ segmentsAt n sorted (i + j) index = .error e := by
  intro rest
  induction rest with
  | nil => intro i e h; cases h
  | cons a rest ih =>
    intro i e h
    unfold segmentsFrom at h
    split at h
    · rename_i e' he
      obtain rfl := Except.error.inj h
      exact ⟨0, a, by simp, he⟩
    · split at h
      · rename_i e' he
        obtain rfl := Except.error.inj h
        obtain ⟨j, idx, h1, h2⟩ := ih (i + 1) _ he
        exact ⟨j + 1, idx, by simpa using h1, by rw [← h2]; congr 1; omega⟩
      · cases h

/-- The last point in the order of the abscissas, ordinates being compared when these are equal. -/
def LastInOrder (pts : List (V2 K)) (i : ℕ) : Prop := i < pts.length ∧ ∀ j < pts.length, keyLe pts j i = true

lemma segmentsAt_error {pts : List (V2 K)} {j index : ℕ} {e : PyErr} (hj : (sortedIndex pts)[j]? = some index)
    (h : segmentsAt pts.length (sortedIndex pts) j index = .error e) :
    e = .indexError ∧ j + 1 = pts.length ∧ index + 1 < pts.length := by
  unfold segmentsAt at h
  dsimp only at h
  generalize (if index = 0 then _ else _ : ℕ) = before at h
  split_ifs at h with hidx
  split at h
  · rename_i hn
    have := List.getElem?_eq_none_iff.1 hn
    rw [sortedIndex_length] at this
    have hjl := (List.getElem?_eq_some_iff.1 hj).1
    rw [sortedIndex_length] at hjl
    exact ⟨(Except.error.inj h).symm, by omega, by omega⟩
  · cases h

/-- The last index of the sorted list is that of the last point in order. -/
lemma sorted_last {pts : List (V2 K)} {index : ℕ} (hpos : 0 < pts.length) (h : (sortedIndex pts)[pts.length - 1]? = some index) :
    LastInOrder pts index := by
  have hmem := List.mem_of_getElem? h
  rw [(sortedIndex_perm pts).mem_iff, List.mem_range] at hmem
  refine ⟨hmem, ?_⟩
  intro j hj
  have hjm : j ∈ sortedIndex pts := (sortedIndex_perm pts).mem_iff.2 (List.mem_range.2 hj)
  obtain ⟨k, hk, rfl⟩ := List.getElem_of_mem hjm
  obtain ⟨hl, hlast⟩ := List.getElem?_eq_some_iff.1 h
  have hk' := hk
  rw [sortedIndex_length] at hk'
  rcases Nat.lt_or_ge k (pts.length - 1) with hlt | hge
  · have := List.pairwise_iff_getElem.1 (sortedIndex_sorted pts) k (pts.length - 1) hk hl hlt
    rw [hlast] at this
    exact this
  · obtain rfl : k = pts.length - 1 := by omega
    rw [hlast]
    have := keyLe_total pts index index
    simpa using this

lemma firstPair_none {pts : List (V2 K)} : ∀ {l : List ((ℕ × ℕ) × (ℕ × ℕ))}, firstPair pts l = .ok none → ∀ p ∈ l, p.1 ≠ p.2 →
    segmentsIntersect pts p.1 p.2 = .ok false := by
  intro l
  induction l with
  | nil => intro _ p hp; simp at hp
  | cons a l ih =>
    obtain ⟨s1, s2⟩ := a
    intro h p hp hne
    unfold firstPair at h
    split_ifs at h with heq
    · rcases List.mem_cons.1 hp with rfl | hp
      · exact absurd heq hne
      · exact ih h p hp hne
    · split at h
      · cases h
      · cases h
      · rename_i hf
        rcases List.mem_cons.1 hp with rfl | hp
        · exact hf
        · exact ih h p hp hne

lemma firstPair_some {pts : List (V2 K)} : ∀ {l : List ((ℕ × ℕ) × (ℕ × ℕ))} {r : (ℕ × ℕ) × (ℕ × ℕ)}, firstPair pts l = .ok (some r) →
    r ∈ l ∧ r.1 ≠ r.2 ∧ segmentsIntersect pts r.1 r.2 = .ok true := by
  intro l
  induction l with
  | nil => intro r h; cases h
  | cons a l ih =>
    obtain ⟨s1, s2⟩ := a
    intro r h
    unfold firstPair at h
    split_ifs at h with heq
    · obtain ⟨h1, h2⟩ := ih h
      exact ⟨List.mem_cons_of_mem _ h1, h2⟩
    · split at h
      · cases h
      · rename_i ht
        obtain rfl := Option.some.inj (Except.ok.inj h)
        exact ⟨List.mem_cons_self, heq, ht⟩
      · obtain ⟨h1, h2⟩ := ih h
        exact ⟨List.mem_cons_of_mem _ h1, h2⟩

lemma firstPair_error {pts : List (V2 K)} : ∀ (l : List ((ℕ × ℕ) × (ℕ × ℕ))), firstPair pts l ≠ .error .indexError := by
  intro l
  induction l with
  | nil => intro h; cases h
  | cons a l ih =>
    obtain ⟨s1, s2⟩ := a
    intro h
    unfold firstPair at h
    split_ifs at h with heq
    · exact ih h
    · split at h
      · rename_i e he
        obtain rfl := Except.error.inj h
        unfold segmentsIntersect at he
        dsimp only at he
        split_ifs at he
        · cases he
        · split at he
          · cases he
          · cases he
      · cases h
      · exact ih h

/-- Twice the area of the triangle of three points of the list. -/
def twiceArea (pts : List (V2 K)) (i j k : ℕ) : K :=
  let a := pts.getD i ⟨0, 0⟩
  let b := pts.getD j ⟨0, 0⟩
  let c := pts.getD k ⟨0, 0⟩
  (b.x - a.x) * (c.y - a.y) - (b.y - a.y) * (c.x - a.x)

/-- No three points of the list are aligned, up to the tolerance of the library on the denominator of intersections. -/
def GeneralPosition (pts : List (V2 K)) : Prop :=
  ∀ i j k, i < pts.length → j < pts.length → k < pts.length → i ≠ j → j ≠ k → i ≠ k → 1 / 10 ^ 15 < |twiceArea pts i j k|

/-- Two segments from the same point are found to intersect, at this point. -/
lemma intersect_shared {pts : List (V2 K)} {i j k : ℕ} (h : 1 / 10 ^ 15 < |twiceArea pts i j k|) :
    segmentsIntersect pts (i, j) (i, k) ≠ .ok false := by
  unfold segmentsIntersect twiceArea at *
  dsimp only at *
  generalize pts.getD i ⟨0, 0⟩ = a at *
  generalize pts.getD j ⟨0, 0⟩ = b at *
  generalize pts.getD k ⟨0, 0⟩ = c at *
  split_ifs with hd
  · intro hc; cases hc
  · unfold lineIntersection
    dsimp only
    have e : (a.x - b.x) * (a.y - c.y) - (a.y - b.y) * (a.x - c.x) = (b.x - a.x) * (c.y - a.y) - (b.y - a.y) * (c.x - a.x) := by ring
    rw [e, if_neg (not_le.2 h)]
    dsimp only
    simp

/-- **C168 (it is false, for every polygon).** For at least three points, no three of them aligned, `self_intersects` never answers `False`:
it answers `True` or raises. -/
theorem C168_never_false_counterexample (pts : List (V2 K)) (h3 : 3 ≤ pts.length) (hg : GeneralPosition pts) :
    selfIntersects pts ≠ .ok none := by
  intro h
  unfold selfIntersects at h
  split at h
  · cases h
  · rename_i segs hsegs
    -- the place of the second point of the list
    have hlen := sortedIndex_length pts
    have h1m : 1 ∈ sortedIndex pts := (sortedIndex_perm pts).mem_iff.2 (List.mem_range.2 (by omega))
    obtain ⟨i, hi, hi1⟩ := List.getElem_of_mem h1m
    have hi? : (sortedIndex pts)[i]? = some 1 := by rw [List.getElem?_eq_getElem hi, hi1]
    obtain ⟨two, htwo, hsub⟩ := segmentsFrom_ok _ _ _ _ _ hsegs i 1 hi?
    rw [zero_add] at htwo
    unfold segmentsAt at htwo
    dsimp only at htwo
    rw [if_neg (by omega : ¬ pts.length ≤ 1 + 1), if_neg (by norm_num : ¬ (1 : ℕ) = 0)] at htwo
    split at htwo
    · cases htwo
    · rename_i next hnext
      obtain rfl := Except.ok.inj htwo
      set b := (sortedIndex pts).getD ((i + (sortedIndex pts).length - 1) % (sortedIndex pts).length) 0 with hb
      have hpos : (i + (sortedIndex pts).length - 1) % (sortedIndex pts).length < (sortedIndex pts).length := Nat.mod_lt _ (by omega)
      have hbget : (sortedIndex pts)[(i + (sortedIndex pts).length - 1) % (sortedIndex pts).length] = b := by
        rw [hb, List.getD_eq_getElem _ _ hpos]
      obtain ⟨hn1, hn2⟩ := List.getElem?_eq_some_iff.1 hnext
      have hnodup : (sortedIndex pts).Nodup := (sortedIndex_perm pts).nodup_iff.2 List.nodup_range
      have hprev : (i + (sortedIndex pts).length - 1) % (sortedIndex pts).length ≠ i ∧
          (i + (sortedIndex pts).length - 1) % (sortedIndex pts).length ≠ i + 1 := by
        rcases Nat.eq_zero_or_pos i with rfl | hip
        · rw [Nat.mod_eq_of_lt (by omega)]; omega
        · rw [show i + (sortedIndex pts).length - 1 = (i - 1) + (sortedIndex pts).length by omega, Nat.add_mod_right,
            Nat.mod_eq_of_lt (by omega)]
          omega
      have hne1 : b ≠ 1 := by
        intro e
        exact hprev.1 ((List.Nodup.getElem_inj_iff hnodup).1 (by rw [hbget, hi1, e]))
      have hne2 : b ≠ next := by
        intro e
        exact hprev.2 ((List.Nodup.getElem_inj_iff hnodup).1 (by rw [hbget, hn2, e]))
      have hne3 : next ≠ 1 := by
        intro e
        have := (List.Nodup.getElem_inj_iff hnodup (hi := hn1) (hj := hi)).1 (by rw [hn2, hi1, e])
        omega
      have hbl : b < pts.length := by
        have : b ∈ sortedIndex pts := by rw [← hbget]; exact List.getElem_mem _
        exact List.mem_range.1 ((sortedIndex_perm pts).mem_iff.1 this)
      have hnl : next < pts.length := by
        have : next ∈ sortedIndex pts := by rw [← hn2]; exact List.getElem_mem _
        exact List.mem_range.1 ((sortedIndex_perm pts).mem_iff.1 this)
      have := firstPair_none h ((1, b), (1, next)) (by
        rw [List.mem_flatMap]
        exact ⟨(1, b), hsub _ (by simp), List.mem_map.2 ⟨(1, next), hsub _ (by simp), rfl⟩⟩) (by
        simp only [ne_eq, Prod.mk.injEq, true_and]; exact hne2)
      exact intersect_shared (hg 1 b next (by omega) hbl hnl (Ne.symm hne1) hne2 (Ne.symm hne3)) this

/-- **C168.** It raises `IndexError` exactly when the last of the points from left to right is not the last of the list (when no two points
have the same place). -/
theorem C168_index_error (pts : List (V2 K)) (h3 : 3 ≤ pts.length)
    (hd : ∀ i j, i < pts.length → j < pts.length → i ≠ j → pts.getD i ⟨0, 0⟩ ≠ pts.getD j ⟨0, 0⟩) :
    selfIntersects pts = .error .indexError ↔ ¬ LastInOrder pts (pts.length - 1) := by
  have hiff : selfIntersects pts = .error .indexError ↔ ∃ e, segmentsFrom pts.length (sortedIndex pts) 0 (sortedIndex pts) = .error e := by
    unfold selfIntersects
    rcases hs : segmentsFrom pts.length (sortedIndex pts) 0 (sortedIndex pts) with e | segs
    · dsimp only
      obtain ⟨j, index, hj, hat⟩ := segmentsFrom_error _ _ _ _ _ hs
      rw [zero_add] at hat
      obtain ⟨rfl, -⟩ := segmentsAt_error hj hat
      exact ⟨fun _ => ⟨_, rfl⟩, fun _ => rfl⟩
    · dsimp only
      constructor
      · intro h; exact absurd h (firstPair_error _)
      · rintro ⟨e, he⟩; cases he
  rw [hiff]
  have hlen := sortedIndex_length pts
  have hl? : (sortedIndex pts)[pts.length - 1]? = some ((sortedIndex pts)[pts.length - 1]'(by omega)) := List.getElem?_eq_getElem (by omega)
  have huniq : ∀ i j, LastInOrder pts i → LastInOrder pts j → i = j := by
    intro i j hi hj
    by_contra hne
    apply hd i j hi.1 hj.1 hne
    have h1 := hi.2 j hj.1
    have h2 := hj.2 i hi.1
    unfold keyLe at h1 h2
    simp only [decide_eq_true_eq] at h1 h2
    rcases h1 with h1 | ⟨h1, h1'⟩
    · rcases h2 with h2 | ⟨h2, h2'⟩
      · exact absurd (h1.trans h2) (lt_irrefl _)
      · rw [h2] at h1; exact absurd h1 (lt_irrefl _)
    · rcases h2 with h2 | ⟨h2, h2'⟩
      · rw [h1] at h2; exact absurd h2 (lt_irrefl _)
      · ext
        · exact h2
        · exact le_antisymm h2' h1'
  constructor
  · rintro ⟨e, he⟩ hlast
    obtain ⟨j, index, hj, hs⟩ := segmentsFrom_error _ _ _ _ _ he
    rw [zero_add] at hs
    obtain ⟨-, h1, h2⟩ := segmentsAt_error hj hs
    obtain rfl : j = pts.length - 1 := by omega
    have := huniq _ _ (sorted_last (by omega) hj) hlast
    omega
  · intro hlast
    rcases hs : segmentsFrom pts.length (sortedIndex pts) 0 (sortedIndex pts) with e | segs
    · exact ⟨e, rfl⟩
    · exfalso
      obtain ⟨two, h1, -⟩ := segmentsFrom_ok _ _ _ _ _ hs _ _ hl?
      rw [zero_add] at h1
      unfold segmentsAt at h1
      dsimp only at h1
      generalize (if (sortedIndex pts)[pts.length - 1]'(by omega) = 0 then _ else _ : ℕ) = before at h1
      split_ifs at h1 with hidx
      · apply hlast
        have hL := sorted_last (by omega) hl?
        have := hL.1
        have e : (sortedIndex pts)[pts.length - 1]'(by omega) = pts.length - 1 := by omega
        rwa [e] at hL
      · rw [List.getElem?_eq_none (by omega)] at h1
        cases h1

/-- **C168.** When it answers `True`, the two segments it gives do meet. -/
theorem C168_true_partial (pts : List (V2 K)) (s1 s2 : ℕ × ℕ) (h : selfIntersects pts = .ok (some (s1, s2))) :
    s1 ≠ s2 ∧ ∃ t u : K, 0 ≤ t ∧ t ≤ 1 ∧ 0 ≤ u ∧ u ≤ 1 ∧
      (let a := pts.getD s1.1 ⟨0, 0⟩; let b := pts.getD s1.2 ⟨0, 0⟩; let c := pts.getD s2.1 ⟨0, 0⟩; let d := pts.getD s2.2 ⟨0, 0⟩
       a.x + t * (b.x - a.x) = c.x + u * (d.x - c.x) ∧ a.y + t * (b.y - a.y) = c.y + u * (d.y - c.y)) := by
  unfold selfIntersects at h
  split at h
  · cases h
  · obtain ⟨-, h1, h2⟩ := firstPair_some h
    refine ⟨h1, ?_⟩
    unfold segmentsIntersect at h2
    dsimp only at h2 ⊢
    generalize pts.getD s1.1 ⟨0, 0⟩ = a at *
    generalize pts.getD s1.2 ⟨0, 0⟩ = b at *
    generalize pts.getD s2.1 ⟨0, 0⟩ = c at *
    generalize pts.getD s2.2 ⟨0, 0⟩ = d at *
    split_ifs at h2 with hd
    unfold lineIntersection at h2
    dsimp only at h2
    split_ifs at h2 with hden
    · cases h2
    · dsimp only at h2
      have := Except.ok.inj h2
      rw [decide_eq_true_eq] at this
      obtain ⟨t0, t1, u0, u1⟩ := this
      have hne : (a.x - b.x) * (c.y - d.y) - (a.y - b.y) * (c.x - d.x) ≠ 0 := by
        intro e; apply hden; rw [e, abs_zero]; positivity
      have ht := div_mul_cancel₀ ((a.x - c.x) * (c.y - d.y) - (a.y - c.y) * (c.x - d.x)) hne
      have hu := div_mul_cancel₀ (-((a.x - b.x) * (a.y - c.y) - (a.y - b.y) * (a.x - c.x))) hne
      refine ⟨_, _, t0, t1, u0, u1, ?_, ?_⟩
      · refine mul_right_cancel₀ hne ?_
        linear_combination (b.x - a.x) * ht - (d.x - c.x) * hu
      · refine mul_right_cancel₀ hne ?_
        linear_combination (b.y - a.y) * ht - (d.y - c.y) * hu

end

/-- A polygon is found to intersect itself exactly when two of its sides which are not consecutive meet. -/
def C168_self_intersects_full_statement : Prop :=
  ∀ pts : List (V2 ℚ), 3 ≤ pts.length → GeneralPosition pts → ((∃ r, selfIntersects pts = .ok (some r)) ↔
    ∃ i j, i < pts.length ∧ j < pts.length ∧ i ≠ j ∧ (i + 1) % pts.length ≠ j ∧ (j + 1) % pts.length ≠ i ∧
      segmentsIntersect pts (i, (i + 1) % pts.length) (j, (j + 1) % pts.length) = .ok true)

/-- **C168 (counterexample).** A triangle is found to intersect itself; a square raises an `IndexError`. -/
theorem C168_self_intersects_counterexample :
    selfIntersects ([⟨0, 0⟩, ⟨1, 2⟩, ⟨3, 1⟩] : List (V2 ℚ)) = .ok (some ((0, 2), (0, 1))) ∧
    selfIntersects ([⟨0, 0⟩, ⟨1, 0⟩, ⟨1, 1⟩, ⟨0, 1⟩] : List (V2 ℚ)) = .error .indexError ∧ ¬ C168_self_intersects_full_statement := by
  have h : selfIntersects ([⟨0, 0⟩, ⟨1, 2⟩, ⟨3, 1⟩] : List (V2 ℚ)) = .ok (some ((0, 2), (0, 1))) := by decide +kernel
  refine ⟨h, by decide +kernel, fun hf => ?_⟩
  have hg : GeneralPosition ([⟨0, 0⟩, ⟨1, 2⟩, ⟨3, 1⟩] : List (V2 ℚ)) := by
    intro i j k hi hj hk
    simp only [List.length_cons, List.length_nil] at hi hj hk
    have : ∀ i j k : Fin 3, i.val ≠ j.val → j.val ≠ k.val → i.val ≠ k.val →
        (1 : ℚ) / 10 ^ 15 < |twiceArea [⟨0, 0⟩, ⟨1, 2⟩, ⟨3, 1⟩] i.val j.val k.val| := by decide +kernel
    exact this ⟨i, hi⟩ ⟨j, hj⟩ ⟨k, hk⟩
  obtain ⟨i, j, hi, hj, h1, h2, h3, -⟩ := (hf _ (by simp) hg).1 ⟨_, h⟩
  simp only [List.length_cons, List.length_nil] at hi hj h2 h3
  omega

/-! ## Distance of two polygons -/

/-- **C168.** `polygon_distance` is the distance of the first vertex of the polygon to the nearest vertex of the other one: a distance between
two points of the polygons, and not larger than that of its first vertex to any vertex. -/
theorem C168_polygon_distance_partial (a : V2 ℝ) (p q : List (V2 ℝ)) (hq : q ≠ []) :
    ∃ d, polygonDistance (a :: p) q = some d ∧ (∃ b ∈ q, d = V2.pointDistance a b) ∧ ∀ b ∈ q, d ≤ V2.pointDistance a b := by
  have key : ∀ (l : List ℝ) (pos : ℕ) (best : ℝ × ℕ), ((argminFrom pos best l).1 = best.1 ∨ (argminFrom pos best l).1 ∈ l) ∧
      (argminFrom pos best l).1 ≤ best.1 ∧ ∀ v ∈ l, (argminFrom pos best l).1 ≤ v := by
    intro l
    induction l with
    | nil => intro pos best; exact ⟨Or.inl rfl, le_rfl, by simp⟩
    | cons v l ih =>
      intro pos best
      obtain ⟨h1, h2, h3⟩ := ih (pos + 1) (if v < best.1 then (v, pos) else best)
      unfold argminFrom
      split_ifs at * with hv
      · refine ⟨?_, h2.trans hv.le, ?_⟩
        · rcases h1 with h1 | h1
          · right; rw [h1]; simp
          · right; exact List.mem_cons_of_mem _ h1
        · intro w hw
          rcases List.mem_cons.1 hw with rfl | hw
          · exact h2
          · exact h3 w hw
      · refine ⟨?_, h2, ?_⟩
        · rcases h1 with h1 | h1
          · left; exact h1
          · right; exact List.mem_cons_of_mem _ h1
        · intro w hw
          rcases List.mem_cons.1 hw with rfl | hw
          · exact h2.trans (not_lt.1 hv)
          · exact h3 w hw
  rcases q with _ | ⟨b, q⟩
  · exact absurd rfl hq
  · obtain ⟨h1, h2, h3⟩ := key (q.map fun b => V2.pointDistance a b) 1 (V2.pointDistance a b, 0)
    refine ⟨_, rfl, ?_, ?_⟩
    · rcases h1 with h1 | h1
      · exact ⟨b, by simp, h1⟩
      · obtain ⟨c, hc, he⟩ := List.mem_map.1 h1
        exact ⟨c, List.mem_cons_of_mem _ hc, he.symm⟩
    · intro c hc
      rcases List.mem_cons.1 hc with rfl | hc
      · exact h2
      · exact h3 _ (List.mem_map.2 ⟨c, hc, rfl⟩)

/-- **C168.** `polygon_distance` raises exactly when one of the two polygons has no vertex. -/
theorem C168_polygon_distance_raises (p q : List (V2 ℝ)) : polygonDistance p q = none ↔ p = [] ∨ q = [] := by
  rcases p with _ | ⟨a, p⟩ <;> rcases q with _ | ⟨b, q⟩ <;> simp [polygonDistance, argmin]

/-- The distance found is the smallest distance between vertices. -/
def C168_polygon_distance_full_statement : Prop :=
  ∀ (p q : List (V2 ℝ)) (d : ℝ), polygonDistance p q = some d → ∀ a ∈ p, ∀ b ∈ q, d ≤ V2.pointDistance a b

/-- **C168 (counterexample).** Two triangles with a common vertex are found to be at distance 2, as this vertex is not the first one. -/
theorem C168_polygon_distance_counterexample :
    polygonDistance [⟨0, 0⟩, ⟨2, 0⟩, ⟨0, 2⟩] [⟨2, 0⟩, ⟨4, 0⟩, ⟨4, 2⟩] = some 2 ∧ ¬ C168_polygon_distance_full_statement := by
  have h : polygonDistance [⟨0, 0⟩, ⟨2, 0⟩, ⟨0, 2⟩] [⟨2, 0⟩, ⟨4, 0⟩, ⟨4, 2⟩] = some 2 := by
    have hd : ∀ x y : ℝ, V2.pointDistance (⟨0, 0⟩ : V2 ℝ) ⟨x, y⟩ = Real.sqrt (x * x + y * y) := by
      intro x y
      unfold V2.pointDistance V2.norm
      congr 1
      show (0 - x) * (0 - x) + (0 - y) * (0 - y) = _
      ring
    have e1 : V2.pointDistance (⟨0, 0⟩ : V2 ℝ) ⟨2, 0⟩ = 2 := by
      rw [hd, show (2 : ℝ) * 2 + 0 * 0 = 2 ^ 2 by norm_num]
      exact Real.sqrt_sq (by norm_num)
    have e2 : V2.pointDistance (⟨0, 0⟩ : V2 ℝ) ⟨4, 0⟩ = 4 := by
      rw [hd, show (4 : ℝ) * 4 + 0 * 0 = 4 ^ 2 by norm_num]
      exact Real.sqrt_sq (by norm_num)
    have e3 : ¬ V2.pointDistance (⟨0, 0⟩ : V2 ℝ) ⟨4, 2⟩ < 2 := by
      rw [hd, not_lt]
      apply Real.le_sqrt_of_sq_le
      norm_num
    simp only [polygonDistance, argmin, argminFrom, List.map_cons, List.map_nil, e1, e2]
    norm_num [e3]
  refine ⟨h, fun hf => ?_⟩
  have := hf _ _ _ h ⟨2, 0⟩ (by simp) ⟨2, 0⟩ (by simp)
  have hz : V2.pointDistance (⟨2, 0⟩ : V2 ℝ) ⟨2, 0⟩ = 0 := by
    unfold V2.pointDistance V2.norm
    rw [Real.sqrt_eq_zero']
    apply le_of_eq
    show ((2 : ℝ) - 2) * (2 - 2) + ((0 : ℝ) - 0) * (0 - 0) = 0
    ring
  rw [hz] at this
  linarith

end Volmdlr.Hull
