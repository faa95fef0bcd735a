import Verif.Shell.UnionProps
import Verif.BBox.Props

/-!
# Set operations of closed shells: settled cases, resulting faces, coplanar faces, ray casting (C178-C182)
-/

namespace Volmdlr.SetOps

variable {S F P : Type*}

/-! ## Cases settled without cutting faces (C178) -/

/-- The answers are right about the points of the two shells. -/
structure Answers.Sound (ans : Answers) (A B : Set P) : Prop where
  disjoint : ans.disjoint = true → Disjoint A B
  firstInside : ans.firstInside = true → A ⊆ B
  secondInside : ans.secondInside = true → B ⊆ A

/-- The points of the shells of a list. -/
def points (content : S → Set P) (l : List S) : Set P := {p : P | ∃ s ∈ l, p ∈ content s}

theorem points_pair (content : S → Set P) (a b : S) : points content [a, b] = content a ∪ content b := by
  ext p; simp [points]

theorem points_one (content : S → Set P) (a : S) : points content [a] = content a := by
  ext p; simp [points]

theorem points_none (content : S → Set P) : points content [] = (∅ : Set P) := by
  ext p; simp [points]

/-- C178: the union of two shells covers the points of both, provided the cut does when no case is settled beforehand. -/
theorem C178_union {content : S → Set P} {ans : Answers} {a b : S} (h : ans.Sound (content a) (content b)) {cut : S → S → List S}
    (hcut : ans.disjoint = false → ans.firstInside = false → ans.secondInside = false → points content (cut a b) = content a ∪ content b) :
    points content (union ans cut a b) = content a ∪ content b := by
  obtain ⟨d, f, s⟩ := ans
  have h1 := h.firstInside
  have h2 := h.secondInside
  cases d
  · cases f
    · cases s
      · simpa [union, validateSetOperation] using hcut rfl rfl rfl
      · simp only [union, validateSetOperation]
        simp [points_one, Set.union_eq_self_of_subset_right (h2 rfl)]
    · simp only [union, validateSetOperation]
      simp [points_one, Set.union_eq_self_of_subset_left (h1 rfl)]
  · simp [union, validateSetOperation, points_pair]

/-- C178: the intersection of two shells covers the points they share, provided the cut does when no case is settled beforehand. -/
theorem C178_intersection {content : S → Set P} {ans : Answers} {a b : S} (h : ans.Sound (content a) (content b)) {cut : S → S → List S}
    (hcut : ans.disjoint = false → ans.firstInside = false → ans.secondInside = false → points content (cut a b) = content a ∩ content b) :
    points content (intersection ans cut a b) = content a ∩ content b := by
  obtain ⟨d, f, s⟩ := ans
  have h0 := h.disjoint
  have h1 := h.firstInside
  have h2 := h.secondInside
  cases d
  · cases f
    · cases s
      · simpa [intersection, validateIntersection] using hcut rfl rfl rfl
      · simp only [intersection, validateIntersection]
        simp [points_one, Set.inter_eq_self_of_subset_right (h2 rfl)]
    · simp only [intersection, validateIntersection]
      simp [points_one, Set.inter_eq_self_of_subset_left (h1 rfl)]
  · simp only [intersection]
    simp [points_none, (Set.disjoint_iff_inter_eq_empty.1 (h0 rfl))]

/-- C178: `subtract_to_closed_shell` covers the points of the first shell out of the second, provided the cut does for shells that are not
apart. -/
theorem C178_subtract_to_closed {content : S → Set P} {ans : Answers} {a b : S} (h : ans.Sound (content a) (content b))
    {cut : S → S → List S} (hcut : ans.disjoint = false → points content (cut a b) = content a \ content b) :
    points content (subtractToClosed ans cut a b) = content a \ content b := by
  obtain ⟨d, f, s⟩ := ans
  have h0 := h.disjoint
  cases d
  · simpa [subtractToClosed] using hcut rfl
  · simp only [subtractToClosed]
    simp [points_one, ((h0 rfl).sdiff_eq_left)]

/-- C178, the whole claim for `subtract`: it covers the points of the first shell that are not in the second. -/
def C178_subtract_full_statement : Prop :=
  ∀ (ans : Answers) (A B : Set Nat) (cut : Set Nat → Set Nat → List (Set Nat)), ans.Sound A B →
    (ans.disjoint = false → ans.firstInside = false → ans.secondInside = false → points id (cut A B) = A \ B) →
    points id (subtract ans cut A B) = A \ B

/-- C178: `subtract` settles the disjoint and inside cases as a union does, and so is right in none of them: with a second shell that has
points, it covers the points of the difference exactly when none of the three tests answers yes. -/
theorem C178_subtract_partial {content : S → Set P} {ans : Answers} {a b : S} (h : ans.Sound (content a) (content b))
    (hb : (content b).Nonempty) {cut : S → S → List S}
    (hcut : ans.disjoint = false → ans.firstInside = false → ans.secondInside = false → points content (cut a b) = content a \ content b) :
    points content (subtract ans cut a b) = content a \ content b ↔
      ans.disjoint = false ∧ ans.firstInside = false ∧ ans.secondInside = false := by
  obtain ⟨d, f, s⟩ := ans
  have h2 := h.secondInside
  obtain ⟨p, hp⟩ := hb
  cases d
  · cases f
    · cases s
      · simpa [subtract, validateSetOperation] using hcut rfl rfl rfl
      · simp only [subtract, validateSetOperation]
        simp only [Bool.false_eq_true, if_false, if_true, List.isEmpty_cons, points_one, Bool.true_eq_false, and_false, iff_false]
        intro h3
        have : p ∈ content a := h2 rfl hp
        rw [h3] at this
        exact this.2 hp
    · simp only [subtract, validateSetOperation]
      simp only [Bool.false_eq_true, if_false, if_true, List.isEmpty_cons, points_one, false_and, and_false, iff_false, Bool.true_eq_false]
      intro h3
      rw [h3] at hp
      exact absurd (h3 ▸ hp : p ∈ content b) (fun h4 => by
        rw [h3] at h4
        exact h4.2 (by rw [h3]; exact hp))
  · simp only [subtract, validateSetOperation]
    simp only [if_true, List.isEmpty_cons, Bool.false_eq_true, if_false, points_pair, Bool.true_eq_false, false_and, iff_false]
    intro h3
    have h4 : p ∈ content a ∪ content b := Or.inr hp
    rw [h3] at h4
    exact h4.2 hp

theorem C178_subtract_counterexample : ¬C178_subtract_full_statement := by
  intro h
  have h1 := h ⟨true, false, false⟩ {1} {2} (fun _ _ => []) ⟨fun _ => by simp, by simp, by simp⟩ (by simp)
  rw [Set.ext_iff] at h1
  simpa [subtract, validateSetOperation, points] using h1 2

/-- C178: the test of the boxes is sound: with a tolerance that is not negative, two shells within boxes that are not found to intersect
share no point, and no two of their points are within twice the tolerance on all the axes. -/
theorem C178_disjoint_boxes {K : Type*} [Field K] [LinearOrder K] [IsStrictOrderedRing K] (a b : Box3 K) (A B : Set (V3 K)) (tol : K) (ht : 0 ≤ tol)
    (hA : ∀ p ∈ A, a.Mem p) (hB : ∀ p ∈ B, b.Mem p) (h : a.isIntersecting b tol = false) :
    Disjoint A B ∧ ∀ p ∈ A, ∀ q ∈ B, ¬(|p.x - q.x| ≤ 2 * tol ∧ |p.y - q.y| ≤ 2 * tol ∧ |p.z - q.z| ≤ 2 * tol) := by
  have key : ∀ p ∈ A, ∀ q ∈ B, ¬(|p.x - q.x| ≤ 2 * tol ∧ |p.y - q.y| ≤ 2 * tol ∧ |p.z - q.z| ≤ 2 * tol) := by
    intro p hp q hq hpq
    obtain ⟨p1, p2, p3, p4, p5, p6⟩ := hA p hp
    obtain ⟨q1, q2, q3, q4, q5, q6⟩ := hB q hq
    have hav : a.Valid := ⟨p1.trans p2, p3.trans p4, p5.trans p6⟩
    have hbv : b.Valid := ⟨q1.trans q2, q3.trans q4, q5.trans q6⟩
    have := (C16_isIntersecting a b hav hbv tol ht).1.2 ⟨p, q, hA p hp, hB q hq, hpq⟩
    rw [h] at this
    exact absurd this (by simp)
  refine ⟨Set.disjoint_left.2 fun p hp hq => key p hp p hq ?_, key⟩
  simp [ht]

/-- The hypotheses of C178 are met: a shell inside another. -/
example : points id (intersection ⟨false, true, false⟩ (fun _ _ => []) ({1} : Set Nat) {1, 2}) = {1} ∩ {1, 2} :=
  C178_intersection (content := id) ⟨by simp, fun _ => by simp, by simp⟩ (by simp)

/-! ## Ray casting (C179) -/

/-- A ray whose intersections are no two at the same place, and that starts on no face. -/
def CleanRay (close : P → P → Bool) (p : P) (ray : List (List P)) : Prop :=
  ray.flatten.Pairwise (fun a b : P => close b a = false) ∧ ∀ pts ∈ ray, ∀ q ∈ pts.head?, close q p = false

theorem countFace_spec (close : P → P → Bool) : ∀ (pts seen : List P) (n : Nat),
    ((countFace close seen n pts).2.2 = false → countFace close seen n pts = (seen ++ pts, n + pts.length, false)) ∧
    ((countFace close seen n pts).2.2 = false ↔ (∀ q ∈ pts, ∀ s ∈ seen, close q s = false) ∧ pts.Pairwise fun a b : P => close b a = false) := by
  intro pts
  induction pts with
  | nil => intro seen n; simp [countFace]
  | cons q rest ih =>
    intro seen n
    rw [countFace]
    by_cases hq : seen.any (close q) = true
    · rw [if_pos hq]
      refine ⟨by simp, by simp, ?_⟩
      rintro ⟨h1, _⟩
      rw [List.any_eq_true] at hq
      obtain ⟨s, hs, hc⟩ := hq
      rw [h1 q (by simp) s hs] at hc
      exact absurd hc (by simp)
    · rw [if_neg hq]
      have hq' : ∀ s ∈ seen, close q s = false := by
        intro s hs
        by_contra hc
        exact hq (List.any_eq_true.2 ⟨s, hs, by simpa using hc⟩)
      obtain ⟨i1, i2⟩ := ih (seen ++ [q]) (n + 1)
      refine ⟨?_, ?_⟩
      · intro h
        rw [i1 h]
        simp only [List.append_assoc, List.singleton_append, List.length_cons, Prod.mk.injEq, and_true, true_and]
        omega
      · rw [i2]
        simp only [List.mem_append, List.pairwise_cons, List.mem_cons, List.not_mem_nil, or_false]
        constructor
        · rintro ⟨h1, h2⟩
          refine ⟨?_, fun b hb => h1 b hb q (Or.inr rfl), h2⟩
          rintro a (rfl | ha) s hs
          · exact hq' s hs
          · exact h1 a ha s (Or.inl hs)
        · rintro ⟨h1, h2, h3⟩
          refine ⟨?_, h3⟩
          rintro a ha s (hs | rfl)
          · exact h1 a (Or.inr ha) s hs
          · exact h2 a ha

theorem countRay_spec (close : P → P → Bool) (p : P) : ∀ (ray : List (List P)) (seen : List P) (n : Nat), (∀ pts ∈ ray, pts ≠ []) →
    (countRay close p seen n ray = .ok .onShell ∧ ∃ pts ∈ ray, ∃ q ∈ pts.head?, close q p = true)
    ∨ (countRay close p seen n ray = .ok (.clean (n + ray.flatten.length)) ∧
        (∀ q ∈ ray.flatten, ∀ s ∈ seen, close q s = false) ∧ CleanRay close p ray)
    ∨ ((∃ m : Nat, countRay close p seen n ray = .ok (.dirty m)) ∧
        ¬((∀ q ∈ ray.flatten, ∀ s ∈ seen, close q s = false) ∧ ray.flatten.Pairwise fun a b : P => close b a = false)) := by
  intro ray
  induction ray with
  | nil => intro seen n _; exact Or.inr (Or.inl ⟨by simp [countRay], by simp, by simp [CleanRay]⟩)
  | cons pts rest ih =>
    intro seen n hne
    cases hp : pts with
    | nil => exact absurd hp (hne pts (by simp))
    | cons q more =>
      rw [← hp]
      rw [countRay.eq_def]
      simp only [hp]
      rw [← hp]
      by_cases hq : close q p = true
      · rw [if_pos hq]
        exact Or.inl ⟨rfl, pts, by simp, q, by simp [hp], hq⟩
      · rw [if_neg hq]
        obtain ⟨c1, c2⟩ := countFace_spec close pts seen n
        cases hr : (countFace close seen n pts).2.2 with
        | true =>
          refine Or.inr (Or.inr ⟨⟨_, rfl⟩, ?_⟩)
          rintro ⟨h1, h2⟩
          rw [List.flatten_cons, List.pairwise_append] at h2
          have := c2.2 ⟨fun a ha s hs => h1 a (by simp [ha]) s hs, h2.1⟩
          rw [hr] at this
          exact absurd this (by simp)
        | false =>
          have c3 := c1 hr
          obtain ⟨c4, c5⟩ := c2.1 hr
          rw [c3]
          simp only [Bool.false_eq_true, if_false]
          rcases ih (seen ++ pts) (n + pts.length) (fun l hl => hne l (by simp [hl])) with ⟨i1, l, hl, i2⟩ | ⟨i1, i2, i3, i4⟩ | ⟨⟨m, i1⟩, i2⟩
          · exact Or.inl ⟨i1, l, by simp [hl], i2⟩
          · refine Or.inr (Or.inl ⟨?_, ?_, ?_, ?_⟩)
            · rw [i1]
              congr 2
              simp only [List.flatten_cons, List.length_append]
              omega
            · intro a ha s hs
              rw [List.flatten_cons, List.mem_append] at ha
              rcases ha with ha | ha
              · exact c4 a ha s hs
              · exact i2 a ha s (by simp [hs])
            · rw [List.flatten_cons, List.pairwise_append]
              exact ⟨c5, i3, fun a ha b hb => i2 b hb a (by simp [ha])⟩
            · intro l hl a ha
              rcases List.mem_cons.1 hl with rfl | hl
              · rw [hp] at ha
                simp only [List.head?_cons, Option.mem_def, Option.some.injEq] at ha
                rw [← ha]
                simpa using hq
              · exact i4 l hl a ha
          · refine Or.inr (Or.inr ⟨⟨m, i1⟩, ?_⟩)
            rintro ⟨h1, h2⟩
            rw [List.flatten_cons, List.pairwise_append] at h2
            refine i2 ⟨?_, h2.2.1⟩
            intro a ha s hs
            rcases List.mem_append.1 hs with hs | hs
            · exact h1 a (by simp [ha]) s hs
            · exact h2.2.2 s hs a ha

/-- What the geometry gives about the rays: a clean ray meets the shell an odd number of times from the inside and an even number from the
outside; a face the ray starts on makes the point one of the shell. -/
structure RaySpec (close : P → P → Bool) (inside : Prop) (p : P) (ray : List (List P)) : Prop where
  some : ∀ pts ∈ ray, pts ≠ []
  onFace : (∃ pts ∈ ray, ∃ q ∈ pts.head?, close q p = true) → inside
  parity : CleanRay close p ray → (ray.flatten.length % 2 = 1 ↔ inside)

/-- C179, the whole claim: the answer is whether the point is inside, whatever the rays. -/
def C179_full_statement : Prop :=
  ∀ (inside : Prop) (p : Nat) (rays : List (List (List Nat))), (∀ ray ∈ rays, RaySpec (fun a b : Nat => a == b) inside p ray) →
    ∃ b : Bool, pointBelongs (fun a b : Nat => a == b) true p rays = .ok b ∧ (b = true ↔ inside)

/-- C179: whatever the random rays, the answer is whether the point is inside, as soon as one of them does not meet the shell twice at the
same place; a point out of the box is found outside. Missing for the whole claim: the answer is wrong when all the rays meet an edge. -/
theorem C179_point_belongs_partial {close : P → P → Bool} {inside : Prop} {p : P} {inBox : Bool} (hbox : inBox = false → ¬inside)
    (rays : List (List (List P))) (h : ∀ ray ∈ rays, RaySpec close inside p ray)
    (hclean : ∃ ray ∈ rays, ray.flatten.Pairwise fun a b : P => close b a = false) :
    ∃ b : Bool, pointBelongs close inBox p rays = .ok b ∧ (b = true ↔ inside) := by
  cases inBox with
  | false => exact ⟨false, rfl, by simpa using hbox rfl⟩
  | true =>
    have key : ∀ (rays : List (List (List P))) (last : Nat), (∀ ray ∈ rays, RaySpec close inside p ray) →
        (∃ ray ∈ rays, ray.flatten.Pairwise fun a b : P => close b a = false) →
        (castRays close p last rays = .ok none ∧ inside) ∨ ∃ n : Nat, castRays close p last rays = .ok (some n) ∧ (n % 2 = 1 ↔ inside) := by
      intro rays
      induction rays with
      | nil => intro _ _ h2; obtain ⟨_, h3, _⟩ := h2; simp at h3
      | cons ray rest ih =>
        intro last h1 h2
        have hs := h1 ray (by simp)
        rw [castRays]
        rcases countRay_spec close p ray [] 0 hs.some with ⟨e1, e2⟩ | ⟨e1, _, e3⟩ | ⟨⟨m, e1⟩, e2⟩
        · exact Or.inl ⟨by rw [e1], hs.onFace e2⟩
        · refine Or.inr ⟨0 + ray.flatten.length, by rw [e1], ?_⟩
          rw [Nat.zero_add]
          exact hs.parity e3
        · rw [e1]
          refine ih m (fun r hr => h1 r (by simp [hr])) ?_
          obtain ⟨r, hr, h3⟩ := h2
          rcases List.mem_cons.1 hr with rfl | hr
          · exact absurd ⟨by simp, h3⟩ e2
          · exact ⟨r, hr, h3⟩
    rcases key rays 0 h hclean with ⟨k1, k2⟩ | ⟨n, k1, k2⟩
    · exact ⟨true, by simp [pointBelongs, k1, Except.map], by simpa using k2⟩
    · refine ⟨!(n % 2 == 0), by simp [pointBelongs, k1, Except.map], ?_⟩
      rw [← k2]
      have := Nat.mod_two_eq_zero_or_one n
      rcases this with h0 | h0 <;> simp [h0]

/-- C179: a ray that enters through an edge, where it meets two faces at one point, and leaves through a face: the point is outside and is
found inside. -/
theorem C179_counterexample : ¬C179_full_statement := by
  intro h
  obtain ⟨b, h1, h2⟩ := h False 0 [[[1], [1], [2]]] (by
    intro ray hr
    simp only [List.mem_singleton] at hr
    subst hr
    refine ⟨by simp, by simp, ?_⟩
    intro hc
    have := hc.1
    simp at this)
  have h3 : pointBelongs (fun a b : Nat => a == b) true 0 [[[1], [1], [2]]] = .ok true := by decide
  rw [h3] at h1
  cases h1
  simp at h2

/-- The hypotheses of C179 are met: the first ray goes through an edge, the second does not; the point is inside. -/
example : ∃ b : Bool, pointBelongs (fun a b : Nat => a == b) true 0 [[[1], [1]], [[3]]] = .ok b ∧ (b = true ↔ True) :=
  C179_point_belongs_partial (by simp) _ (by
    intro ray hr
    simp only [List.mem_cons, List.not_mem_nil, or_false] at hr
    rcases hr with rfl | rfl
    · refine ⟨by simp, by simp, ?_⟩
      intro hc
      have := hc.1
      simp at this
    · exact ⟨by simp, by simp, by simp⟩) ⟨[[3]], by simp, by simp⟩

/-! ## Resulting faces (C180) -/

theorem validFacesLoop_spec (inside : F → F → Bool) : ∀ (faces valid : List F),
    ∃ kept : List F, validFacesLoop inside valid faces = valid ++ kept ∧ kept.Sublist faces ∧
      (∀ f ∈ faces, f ∈ kept ∨ ∃ v ∈ valid ++ kept, inside v f = true) ∧
      (∀ f ∈ kept, ∀ v ∈ valid, inside v f = false) ∧ kept.Pairwise fun a b : F => inside a b = false := by
  intro faces
  induction faces with
  | nil => intro valid; exact ⟨[], by simp [validFacesLoop], by simp, by simp, by simp, by simp⟩
  | cons f rest ih =>
    intro valid
    rw [validFacesLoop]
    by_cases hf : (valid.any fun v : F => inside v f) = true
    · rw [if_pos hf]
      obtain ⟨kept, h1, h2, h3, h4, h5⟩ := ih valid
      refine ⟨kept, h1, h2.cons f, ?_, h4, h5⟩
      intro g hg
      rcases List.mem_cons.1 hg with rfl | hg
      · obtain ⟨v, hv, hi⟩ := List.any_eq_true.1 hf
        exact Or.inr ⟨v, by simp [hv], hi⟩
      · exact h3 g hg
    · rw [if_neg hf]
      obtain ⟨kept, h1, h2, h3, h4, h5⟩ := ih (valid ++ [f])
      refine ⟨f :: kept, by rw [h1]; simp, h2.cons_cons f, ?_, ?_, ?_⟩
      · intro g hg
        rcases List.mem_cons.1 hg with rfl | hg
        · simp
        · rcases h3 g hg with h | ⟨v, hv, hi⟩
          · simp [h]
          · exact Or.inr ⟨v, by simpa using hv, hi⟩
      · intro g hg v hv
        rcases List.mem_cons.1 hg with rfl | hg
        · by_contra hc
          exact hf (List.any_eq_true.2 ⟨v, hv, by simpa using hc⟩)
        · exact h4 g hg v (by simp [hv])
      · exact List.pairwise_cons.2 ⟨fun g hg => h4 g hg f (by simp), h5⟩

/-- C180, the whole claim: no face that is kept lies in another one. -/
def C180_full_statement : Prop :=
  ∀ (content : Nat → Set Nat) (inside : Nat → Nat → Bool), (∀ a b : Nat, inside a b = true ↔ content b ⊆ content a) → ∀ faces : List Nat,
    (validFaces inside faces).Pairwise fun a b : Nat => inside a b = false ∧ inside b a = false

/-- C180: the clean-up of the faces of a set operation keeps faces of the list in their order; every face left out lies in a face that is
kept, no face lies in a face kept before it, and no point is lost. Missing for the whole claim: a face that lies in a later one is kept. -/
theorem C180_valid_faces_partial (inside : F → F → Bool) (faces : List F) :
    (validFaces inside faces).Sublist faces ∧
    (∀ f ∈ faces, f ∈ validFaces inside faces ∨ ∃ v ∈ validFaces inside faces, inside v f = true) ∧
    (validFaces inside faces).Pairwise (fun a b : F => inside a b = false) ∧
    ∀ content : F → Set P, (∀ a b : F, inside a b = true → content b ⊆ content a) →
      points content (validFaces inside faces) = points content faces := by
  obtain ⟨kept, h1, h2, h3, _, h5⟩ := validFacesLoop_spec inside faces []
  simp only [List.nil_append] at h1 h3
  have h1' : validFaces inside faces = kept := h1
  rw [h1']
  refine ⟨h2, h3, h5, ?_⟩
  intro content hc
  ext p
  constructor
  · rintro ⟨f, hf, hp⟩
    exact ⟨f, h2.subset hf, hp⟩
  · rintro ⟨f, hf, hp⟩
    rcases h3 f hf with h | ⟨v, hv, hi⟩
    · exact ⟨f, h, hp⟩
    · exact ⟨v, hv, hc v f hi hp⟩

/-- C180: when the order does not matter to lying in, no face that is kept lies in another one; with larger faces first this is so. -/
theorem C180_order (inside : F → F → Bool) (faces : List F) (h : faces.Pairwise fun a b : F => inside b a = true → inside a b = true) :
    (validFaces inside faces).Pairwise fun a b : F => inside a b = false ∧ inside b a = false := by
  obtain ⟨h1, _, h3, _⟩ := C180_valid_faces_partial (P := Unit) inside faces
  have h4 := h.sublist h1
  refine (h3.and h4).imp ?_
  rintro a b ⟨e1, e2⟩
  refine ⟨e1, ?_⟩
  by_contra hc
  rw [e2 (by simpa using hc)] at e1
  exact absurd e1 (by simp)

theorem C180_counterexample : ¬C180_full_statement := by
  intro h
  have h1 := h (fun n : Nat => {k : Nat | k < n}) (fun a b : Nat => decide (b ≤ a)) (by
    intro a b
    simp only [decide_eq_true_eq]
    constructor
    · intro hab k hk
      exact lt_of_lt_of_le hk hab
    · intro hs
      by_contra hc
      have : a ∈ {k : Nat | k < b} := by simp only [Set.mem_setOf_eq]; omega
      exact absurd (hs this) (by simp)) [1, 2]
  have h2 : validFaces (fun a b : Nat => decide (b ≤ a)) [1, 2] = [1, 2] := by decide
  rw [h2] at h1
  simp at h1

/-- A run of C180: intervals; the second lies in the first and is left out. -/
example : validFaces (fun a b : Nat × Nat => decide (a.1 ≤ b.1 ∧ b.2 ≤ a.2)) [(0, 5), (1, 2), (4, 7)] = [(0, 5), (4, 7)] := by decide

end Volmdlr.SetOps
