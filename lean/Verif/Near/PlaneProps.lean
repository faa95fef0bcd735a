import Verif.Near.NearProps

/-!
# C204, C205: distances of a plane face to a point and to another plane face

**C204** `PlaneFace3D.point_distance`, **C205** `PlaneFace3D.minimum_distance_points_plane`.
-/

namespace Volmdlr.Near

/-! ## C204 -/

/-- The points of space of a region of the plane of a face, in the frame of the plane. -/
def Lift (R : Set (V2 ℝ)) : Set (V3 ℝ) := {q | q.z = 0 ∧ (⟨q.x, q.y⟩ : V2 ℝ) ∈ R}

/-- The answer is a point of the set and its distance to the point, and no point of the set is nearer. -/
def IsNearest (A : Set (V3 ℝ)) (p : V3 ℝ) (r : ℝ × V3 ℝ) : Prop := r.2 ∈ A ∧ V3.pointDistance p r.2 = r.1 ∧ ∀ q ∈ A, r.1 ≤ V3.pointDistance p q

/-- The border of a region as seen from a point out of it: a part of the region that comes before the points of the region. -/
def BorderFrom (B O : Set (V2 ℝ)) (p : V2 ℝ) : Prop := B ⊆ O ∧ (p ∉ O → ∀ q ∈ O, ∃ b ∈ B, V2.pointDistance p b ≤ V2.pointDistance p q)

/-- `point_border_distance` gives the nearest point of the border. -/
def NearestOnBorder (B : Set (V2 ℝ)) (p : V2 ℝ) (r : ℝ × V2 ℝ) : Prop := r.2 ∈ B ∧ V2.pointDistance p r.2 = r.1 ∧ ∀ b ∈ B, r.1 ≤ V2.pointDistance p b

lemma dist3 (u v : V3 ℝ) : V3.pointDistance u v = Real.sqrt ((u.x - v.x) ^ 2 + (u.y - v.y) ^ 2 + (u.z - v.z) ^ 2) := by
  unfold V3.pointDistance; exact V3.norm_sub_eq u v

lemma dist2 (u v : V2 ℝ) : V2.pointDistance u v = Real.sqrt ((u.x - v.x) ^ 2 + (u.y - v.y) ^ 2) := by
  unfold V2.pointDistance; exact V2.norm_sub_eq u v

lemma dist3_lift (p q : V3 ℝ) (hq : q.z = 0) : V3.pointDistance p q = Real.sqrt (p.z ^ 2 + V2.pointDistance ⟨p.x, p.y⟩ ⟨q.x, q.y⟩ ^ 2) := by
  rw [dist3, dist2, Real.sq_sqrt (by positivity), hq]
  congr 1
  ring

/-- **C204** (partial: the face has no inner contour) the distance is that of the nearest point of the face, which is the point answered. -/
theorem C204_plane_face_point_partial (O B : Set (V2 ℝ)) (belongs : V2 ℝ → Bool) (border : V2 ℝ → ℝ × V2 ℝ) (p : V3 ℝ)
    (hO : belongs ⟨p.x, p.y⟩ = true ↔ (⟨p.x, p.y⟩ : V2 ℝ) ∈ O) (hB : BorderFrom B O ⟨p.x, p.y⟩) (hb : NearestOnBorder B ⟨p.x, p.y⟩ (border ⟨p.x, p.y⟩)) :
    IsNearest (Lift O) p (planeFaceDistance belongs border p) := by
  unfold planeFaceDistance
  split_ifs with h
  · refine ⟨⟨rfl, hO.mp h⟩, ?_, fun q hq => ?_⟩
    · rw [dist3]
      dsimp only
      rw [show (p.x - p.x) ^ 2 + (p.y - p.y) ^ 2 + (p.z - 0) ^ 2 = p.z ^ 2 by ring, Real.sqrt_sq_eq_abs]
    · rw [dist3_lift p q hq.1]
      dsimp only
      exact Real.abs_le_sqrt (by have := sq_nonneg (V2.pointDistance ⟨p.x, p.y⟩ ⟨q.x, q.y⟩); linarith)
  · obtain ⟨h1, h2, h3⟩ := hb
    have hn : (⟨p.x, p.y⟩ : V2 ℝ) ∉ O := fun hh => h (hO.mpr hh)
    refine ⟨⟨rfl, hB.1 h1⟩, ?_, fun q hq => ?_⟩
    · rw [dist3_lift _ _ rfl]
      dsimp only
      rw [h2]
    · rw [dist3_lift p q hq.1]
      dsimp only
      obtain ⟨b, hbB, hle⟩ := hB.2 hn _ hq.2
      have hle' := (h3 b hbB).trans hle
      have h0 : 0 ≤ (border ⟨p.x, p.y⟩).1 := by rw [← h2]; exact Real.sqrt_nonneg _
      refine Real.sqrt_le_sqrt ?_
      have := pow_le_pow_left₀ h0 hle' 2
      linarith

/-- **C204** whatever the inner contours, the answer is at least the distance of the face without them when the projection is not in the outer contour. -/
theorem C204_outside (O H B : Set (V2 ℝ)) (belongs : V2 ℝ → Bool) (border : V2 ℝ → ℝ × V2 ℝ) (p : V3 ℝ) (hp : (⟨p.x, p.y⟩ : V2 ℝ) ∉ O)
    (hO : belongs ⟨p.x, p.y⟩ = true ↔ (⟨p.x, p.y⟩ : V2 ℝ) ∈ O \ H) (hB : BorderFrom B O ⟨p.x, p.y⟩) (hd : ∀ b ∈ B, b ∉ H) (hb : NearestOnBorder B ⟨p.x, p.y⟩ (border ⟨p.x, p.y⟩)) :
    IsNearest (Lift (O \ H)) p (planeFaceDistance belongs border p) := by
  refine C204_plane_face_point_partial (O \ H) B belongs border p hO ⟨fun b hbB => ⟨hB.1 hbB, hd b hbB⟩, fun _ q hq => hB.2 hp q hq.1⟩ hb

/-- C204 as expected by a user: also for a face with holes, apart from the border of the outer contour. -/
def C204_full_statement : Prop := ∀ (O H B : Set (V2 ℝ)) (belongs : V2 ℝ → Bool) (border : V2 ℝ → ℝ × V2 ℝ) (p : V3 ℝ),
  (belongs ⟨p.x, p.y⟩ = true ↔ (⟨p.x, p.y⟩ : V2 ℝ) ∈ O \ H) → BorderFrom B O ⟨p.x, p.y⟩ → (∀ b ∈ B, b ∉ H) → NearestOnBorder B ⟨p.x, p.y⟩ (border ⟨p.x, p.y⟩) →
  IsNearest (Lift (O \ H)) p (planeFaceDistance belongs border p)

/-- **C204** false: above a hole, the distance is measured to the outer contour. -/
theorem C204_counterexample : ¬ C204_full_statement := by
  intro h
  have hs : Real.sqrt 100 = 10 := by rw [show (100 : ℝ) = 10 ^ 2 by norm_num]; exact Real.sqrt_sq (by norm_num)
  have := h {q | q.x ^ 2 + q.y ^ 2 ≤ 100} {q | q.x ^ 2 + q.y ^ 2 < 1} {q | q.x ^ 2 + q.y ^ 2 = 100} (fun _ => false) (fun _ => (10, ⟨10, 0⟩)) ⟨0, 0, 0⟩
    (by simp) ⟨fun q hq => le_of_eq hq, fun hh => absurd (by simp) hh⟩ (fun b hb => by simp only [Set.mem_setOf_eq] at hb ⊢; rw [hb]; norm_num)
    ⟨by simp only [Set.mem_setOf_eq]; norm_num, by rw [dist2]; dsimp only; rw [show ((0 : ℝ) - 10) ^ 2 + (0 - 0) ^ 2 = 100 by norm_num, hs], fun b hb => by
      rw [dist2]
      dsimp only
      simp only [Set.mem_setOf_eq] at hb
      rw [show ((0 : ℝ) - b.x) ^ 2 + (0 - b.y) ^ 2 = 100 by rw [← hb]; ring, hs]⟩
  have h1 := this.2.2 ⟨1, 0, 0⟩ ⟨rfl, by simp⟩
  unfold planeFaceDistance at h1
  rw [if_neg (by simp), dist3] at h1
  dsimp only at h1
  rw [show (0 : ℝ) ^ 2 + 10 ^ 2 = 100 by norm_num, hs, show ((0 : ℝ) - 1) ^ 2 + (0 - 0) ^ 2 + (0 - 0) ^ 2 = 1 by norm_num, Real.sqrt_one] at h1
  norm_num at h1

/-- The hypotheses of C204 are met: a disc and a point beside it. -/
example : BorderFrom {q | q.x ^ 2 + q.y ^ 2 = 100} {q | q.x ^ 2 + q.y ^ 2 ≤ 100} ⟨20, 0⟩ ∧ NearestOnBorder {q | q.x ^ 2 + q.y ^ 2 = 100} ⟨20, 0⟩ (10, ⟨10, 0⟩) ∧
    (⟨20, 0⟩ : V2 ℝ) ∉ ({q | q.x ^ 2 + q.y ^ 2 ≤ 100} : Set (V2 ℝ)) := by
  have e10 : V2.pointDistance ⟨20, 0⟩ ⟨10, 0⟩ = 10 := by
    rw [dist2]
    dsimp only
    rw [show ((20 : ℝ) - 10) ^ 2 + (0 - 0) ^ 2 = 10 ^ 2 by norm_num, Real.sqrt_sq (by norm_num)]
  have key : ∀ q : V2 ℝ, q.x ^ 2 + q.y ^ 2 ≤ 100 → 10 ≤ V2.pointDistance ⟨20, 0⟩ q := by
    intro q hq
    rw [dist2]
    refine Real.le_sqrt_of_sq_le ?_
    dsimp only
    have : q.x ≤ 10 := by nlinarith [sq_nonneg q.y]
    nlinarith [sq_nonneg q.y]
  refine ⟨⟨fun q hq => le_of_eq hq, fun _ q hq => ⟨⟨10, 0⟩, by simp only [Set.mem_setOf_eq]; norm_num, by rw [e10]; exact key q hq⟩⟩,
    ⟨by simp only [Set.mem_setOf_eq]; norm_num, e10, fun b hb => key b (le_of_eq hb)⟩, by simp only [Set.mem_setOf_eq]; norm_num⟩

/-! ## C205 -/

section
variable {E : Type*}

/-- The points of the edges of a border. -/
def borderPoints (points : E → Set (V3 ℝ)) (edges : List E) : Set (V3 ℝ) := {p | ∃ e ∈ edges, p ∈ points e}

/-- **C205** (partial) the answer is a common point of the face and the border of the other one, or else the distance of the two borders, with the points that realize it. -/
theorem C205_plane_faces_partial (points : E → Set (V3 ℝ)) (region1 : Set (V3 ℝ)) (hits : E → List (V3 ℝ)) (edgeDistance : E → E → ℝ × V3 ℝ × V3 ℝ) (edges1 edges2 : List E)
    (hne1 : edges1 ≠ []) (hne2 : edges2 ≠ []) (hh : ∀ e ∈ edges2, (∀ p ∈ hits e, p ∈ points e ∧ p ∈ region1) ∧ (hits e = [] → ∀ p ∈ points e, p ∉ region1))
    (hd : ∀ a ∈ edges1, ∀ b ∈ edges2, IsDistance V3.pointDistance (points a) (points b) (edgeDistance a b)) :
    ∃ r, planeFacesDistance hits edgeDistance edges1 edges2 = .ok r ∧
      (((∃ p ∈ borderPoints points edges2, p ∈ region1) ∧ r.1 = 0 ∧ r.2.1 = r.2.2 ∧ r.2.1 ∈ region1 ∧ r.2.1 ∈ borderPoints points edges2) ∨
       ((∀ p ∈ borderPoints points edges2, p ∉ region1) ∧ IsDistance V3.pointDistance (borderPoints points edges1) (borderPoints points edges2) r)) := by
  unfold planeFacesDistance
  rcases hl : edges2.flatMap hits with _ | ⟨p, l⟩
  · have hnil : ∀ e ∈ edges2, hits e = [] := by
      intro e he
      rw [List.flatMap_eq_nil_iff] at hl
      exact hl e he
    have hm : ∀ z, z ∈ (edges1.flatMap fun a : E => edges2.map fun b : E => edgeDistance a b) ↔ ∃ a ∈ edges1, ∃ b ∈ edges2, edgeDistance a b = z := by
      intro z; simp only [List.mem_flatMap, List.mem_map]
    obtain ⟨x, hx⟩ := List.exists_mem_of_ne_nil _ hne1
    obtain ⟨y, hy⟩ := List.exists_mem_of_ne_nil _ hne2
    obtain ⟨r, hr, hleast, hmin⟩ := leastOf_spec (edges1.flatMap fun a : E => edges2.map fun b : E => edgeDistance a b) (by
      intro h0
      have := (hm _).mpr ⟨x, hx, y, hy, rfl⟩
      rw [h0] at this
      simp at this)
    obtain ⟨a, ha, b, hb, rfl⟩ := (hm r).mp hr
    obtain ⟨d1, d2, d3, -⟩ := hd a ha b hb
    refine ⟨edgeDistance a b, by dsimp only; rw [hleast], Or.inr ⟨?_, ⟨a, ha, d1⟩, ⟨b, hb, d2⟩, d3, ?_⟩⟩
    · rintro q ⟨e, he, hq⟩
      exact (hh e he).2 (hnil e he) q hq
    · rintro q ⟨a', ha', hq⟩ q' ⟨b', hb', hq'⟩
      exact (hmin _ ((hm _).mpr ⟨a', ha', b', hb', rfl⟩)).trans ((hd a' ha' b' hb').2.2.2 q hq q' hq')
  · have hp : p ∈ edges2.flatMap hits := by rw [hl]; simp
    obtain ⟨e, he, hpe⟩ := List.mem_flatMap.mp hp
    obtain ⟨h1, h2⟩ := (hh e he).1 p hpe
    exact ⟨_, rfl, Or.inl ⟨⟨p, ⟨e, he, h1⟩, h2⟩, rfl, rfl, h2, e, he, h1⟩⟩

end

/-- C205 as expected by a user: the distance of the faces (which have their borders and are apart). -/
def C205_full_statement : Prop := ∀ (points : ℕ → Set (V3 ℝ)) (region1 region2 : Set (V3 ℝ)) (hits : ℕ → List (V3 ℝ)) (edgeDistance : ℕ → ℕ → ℝ × V3 ℝ × V3 ℝ) (edges1 edges2 : List ℕ),
  edges1 ≠ [] → edges2 ≠ [] → (∀ e ∈ edges2, (∀ p ∈ hits e, p ∈ points e ∧ p ∈ region1) ∧ (hits e = [] → ∀ p ∈ points e, p ∉ region1)) →
  (∀ a ∈ edges1, ∀ b ∈ edges2, IsDistance V3.pointDistance (points a) (points b) (edgeDistance a b)) →
  borderPoints points edges1 ⊆ region1 → borderPoints points edges2 ⊆ region2 →
  ∃ r, planeFacesDistance hits edgeDistance edges1 edges2 = .ok r ∧ ∀ p ∈ region1, ∀ q ∈ region2, r.1 ≤ V3.pointDistance p q

/-- **C205** false: a small face above the inside of a large one is nearer to it than to its border. -/
theorem C205_counterexample : ¬ C205_full_statement := by
  intro h
  have hp1 : ∀ p : V3 ℝ, p ∈ (fun e : ℕ => if e = 0 then {p : V3 ℝ | p.x ^ 2 + p.y ^ 2 = 100 ∧ p.z = 0} else {p | p.x ^ 2 + p.y ^ 2 = 1 ∧ p.z = 1}) 0 ↔ p.x ^ 2 + p.y ^ 2 = 100 ∧ p.z = 0 := by
    intro p; simp
  have hp2 : ∀ p : V3 ℝ, p ∈ (fun e : ℕ => if e = 0 then {p : V3 ℝ | p.x ^ 2 + p.y ^ 2 = 100 ∧ p.z = 0} else {p | p.x ^ 2 + p.y ^ 2 = 1 ∧ p.z = 1}) 1 ↔ p.x ^ 2 + p.y ^ 2 = 1 ∧ p.z = 1 := by
    intro p; simp
  obtain ⟨r, hr, hall⟩ := h (fun e : ℕ => if e = 0 then {p : V3 ℝ | p.x ^ 2 + p.y ^ 2 = 100 ∧ p.z = 0} else {p | p.x ^ 2 + p.y ^ 2 = 1 ∧ p.z = 1})
    {p | p.x ^ 2 + p.y ^ 2 ≤ 100 ∧ p.z = 0} {p | p.x ^ 2 + p.y ^ 2 ≤ 1 ∧ p.z = 1} (fun _ => []) (fun _ _ => (Real.sqrt 82, ⟨10, 0, 0⟩, ⟨1, 0, 1⟩)) [0] [1] (by simp) (by simp)
    (by
      intro e he
      rw [List.mem_singleton] at he
      subst he
      refine ⟨by simp, fun _ p hp hq => ?_⟩
      have h1 := ((hp2 p).mp hp).2
      have h2 : p.z = 0 := hq.2
      rw [h2] at h1
      norm_num at h1)
    (by
      intro a ha b hb
      rw [List.mem_singleton] at ha hb
      subst ha hb
      refine ⟨(hp1 _).mpr (by norm_num), (hp2 _).mpr (by norm_num), ?_, fun p hp q hq => ?_⟩
      · rw [dist3]
        dsimp only
        congr 1
        norm_num
      · obtain ⟨a1, a2⟩ := (hp1 p).mp hp
        obtain ⟨b1, b2⟩ := (hp2 q).mp hq
        rw [dist3]
        refine Real.sqrt_le_sqrt ?_
        rw [a2, b2]
        have : p.x * q.x + p.y * q.y ≤ 10 := by nlinarith [sq_nonneg (p.x * q.y - p.y * q.x), sq_nonneg (p.x * q.x + p.y * q.y), sq_nonneg (p.x - 10 * q.x), sq_nonneg (p.y - 10 * q.y)]
        nlinarith)
    (by
      rintro p ⟨e, he, hp⟩
      rw [List.mem_singleton] at he
      subst he
      obtain ⟨a1, a2⟩ := (hp1 p).mp hp
      exact ⟨le_of_eq a1, a2⟩)
    (by
      rintro p ⟨e, he, hp⟩
      rw [List.mem_singleton] at he
      subst he
      obtain ⟨a1, a2⟩ := (hp2 p).mp hp
      exact ⟨le_of_eq a1, a2⟩)
  have hrun : planeFacesDistance (fun _ : ℕ => ([] : List (V3 ℝ))) (fun _ _ : ℕ => (Real.sqrt 82, (⟨10, 0, 0⟩ : V3 ℝ), (⟨1, 0, 1⟩ : V3 ℝ))) [0] [1] = .ok (Real.sqrt 82, ⟨10, 0, 0⟩, ⟨1, 0, 1⟩) := by
    unfold planeFacesDistance
    simp [leastOf]
  rw [hrun] at hr
  cases hr
  have := hall ⟨0, 0, 0⟩ ⟨by norm_num, rfl⟩ ⟨0, 0, 1⟩ ⟨by norm_num, rfl⟩
  rw [dist3] at this
  dsimp only at this
  rw [show ((0 : ℝ) - 0) ^ 2 + (0 - 0) ^ 2 + (0 - 1) ^ 2 = 1 by norm_num, Real.sqrt_one, Real.sqrt_le_one] at this
  norm_num at this

/-- The hypotheses of C205 are met (borders that are points). -/
example : IsDistance V3.pointDistance {⟨0, 0, 0⟩} {⟨0, 0, 2⟩} (2, ⟨0, 0, 0⟩, ⟨0, 0, 2⟩) := by
  have e : V3.pointDistance (⟨0, 0, 0⟩ : V3 ℝ) ⟨0, 0, 2⟩ = 2 := by
    rw [dist3]
    dsimp only
    rw [show ((0 : ℝ) - 0) ^ 2 + (0 - 0) ^ 2 + (0 - 2) ^ 2 = 2 ^ 2 by norm_num, Real.sqrt_sq (by norm_num)]
  refine ⟨rfl, rfl, e, ?_⟩
  intro p hp q hq
  rw [Set.mem_singleton_iff] at hp hq
  subst hp hq
  rw [e]

end Volmdlr.Near
