import Verif.Surface.ExtrusionModel
import Verif.Segment.Props
import Verif.Frame.Props

/-!
# C213: extrusion of a line segment of space
-/

namespace Volmdlr.Surface


/-! ## Specification -/

/-- The points swept by a segment moved along a vector. -/
def SweptAlong (start fin vector : V3 ℝ) : Set (V3 ℝ) :=
  {p | ∃ s t : ℝ, 0 ≤ s ∧ s ≤ 1 ∧ 0 ≤ t ∧ t ≤ 1 ∧ p = start + V3.smul s (fin - start) + V3.smul t vector}

/-- The area of the parallelogram swept by the segment. -/
noncomputable def parallelogramArea (start fin vector : V3 ℝ) : ℝ := V3.norm (V3.cross (fin - start) vector)

/-- A point of the plane that is a weighted mean of the corners. -/
def InHull (corners : List (V2 ℝ)) (q : V2 ℝ) : Prop :=
  ∃ w : List ℝ, w.length = corners.length ∧ (∀ a ∈ w, 0 ≤ a) ∧ w.sum = 1 ∧
    q.x = (List.zipWith (fun (a : ℝ) (c : V2 ℝ) => a * c.x) w corners).sum ∧ q.y = (List.zipWith (fun (a : ℝ) (c : V2 ℝ) => a * c.y) w corners).sum

/-- The points of a face whose contour is convex: the weighted means of its corners, seen in space. -/
def CornerFace.points (f : CornerFace) : Set (V3 ℝ) :=
  {p | ∃ q : V2 ℝ, InHull f.corners q ∧ p = f.frame.origin + V3.smul q.x f.frame.basis.u + V3.smul q.y f.frame.basis.v}

/-! ## Proofs -/

/-- The weighted means of the corners of a rectangle are its points. -/
lemma hull_rectangle {a b : ℝ} (ha : 0 < a) (hb : 0 < b) (q : V2 ℝ) :
    InHull [⟨0, 0⟩, ⟨a, 0⟩, ⟨a, b⟩, ⟨0, b⟩] q ↔ ∃ s t : ℝ, 0 ≤ s ∧ s ≤ 1 ∧ 0 ≤ t ∧ t ≤ 1 ∧ q = ⟨s * a, t * b⟩ := by
  constructor
  · rintro ⟨w, hl, h0, h1, hx, hy⟩
    obtain ⟨w0, w1, w2, w3, rfl⟩ : ∃ w0 w1 w2 w3, w = [w0, w1, w2, w3] := by
      match w, hl with
      | [w0, w1, w2, w3], _ => exact ⟨w0, w1, w2, w3, rfl⟩
    have n0 := h0 w0 (by simp)
    have n1 := h0 w1 (by simp)
    have n2 := h0 w2 (by simp)
    have n3 := h0 w3 (by simp)
    simp at h1 hx hy
    refine ⟨w1 + w2, w2 + w3, by linarith, by linarith, by linarith, by linarith, ?_⟩
    ext
    · dsimp only; rw [hx]; ring
    · dsimp only; rw [hy]; ring
  · rintro ⟨s, t, s0, s1, t0, t1, rfl⟩
    refine ⟨[(1 - s) * (1 - t), s * (1 - t), s * t, (1 - s) * t], rfl, ?_, ?_, ?_, ?_⟩
    · intro x hx
      simp only [List.mem_cons, List.not_mem_nil, or_false] at hx
      have p1 := mul_nonneg (sub_nonneg.mpr s1) (sub_nonneg.mpr t1)
      have p2 := mul_nonneg s0 (sub_nonneg.mpr t1)
      have p3 := mul_nonneg s0 t0
      have p4 := mul_nonneg (sub_nonneg.mpr s1) t0
      rcases hx with rfl | rfl | rfl | rfl <;> assumption
    · simp only [List.sum_cons, List.sum_nil]; ring
    · simp only [List.zipWith, List.sum_cons, List.sum_nil]; ring
    · simp only [List.zipWith, List.sum_cons, List.sum_nil]; ring

lemma norm_neg_sub (a b : V3 ℝ) : V3.pointDistance a b = V3.norm (b - a) := by
  unfold V3.pointDistance V3.norm
  congr 1
  simp only [V3.sub_x, V3.sub_y, V3.sub_z]
  ring

/-- **C213** (partial) the extrusion is one face, whose points are the points swept by the segment, for each extrusion vector; it is refused exactly for a segment or a vector of length zero. -/
theorem C213_extrusion_partial (start fin vector : V3 ℝ) :
    (segmentExtrusion start fin vector = none ↔ fin = start ∨ vector = ⟨0, 0, 0⟩) ∧
    ∀ faces, segmentExtrusion start fin vector = some faces → ∃ f, faces = [f] ∧ f.points = SweptAlong start fin vector := by
  have zero : ∀ w : V3 ℝ, V3.unitVector w = none ↔ w = ⟨0, 0, 0⟩ := by
    intro w
    constructor
    · intro h
      by_contra hne
      obtain ⟨d, hd⟩ := V3.unitVector_some hne
      rw [h] at hd
      cases hd
    · rintro rfl
      unfold V3.unitVector V3.norm
      simp
  have sub : fin - start = (⟨0, 0, 0⟩ : V3 ℝ) ↔ fin = start := by
    constructor
    · intro h
      have hx := congrArg V3.x h
      have hy := congrArg V3.y h
      have hz := congrArg V3.z h
      simp only [V3.sub_x, V3.sub_y, V3.sub_z] at hx hy hz
      ext <;> linarith
    · rintro rfl
      ext <;> simp
  unfold segmentExtrusion
  rcases hu : V3.unitVector (fin - start) with _ | u
  · refine ⟨⟨fun _ => Or.inl (sub.mp ((zero _).mp hu)), fun _ => rfl⟩, fun _ h => by cases h⟩
  · have n1 : ¬ fin = start := fun h => by rw [(zero _).mpr (sub.mpr h)] at hu; cases hu
    rcases hv : V3.unitVector vector with _ | v
    · refine ⟨⟨fun _ => Or.inr ((zero _).mp hv), fun _ => rfl⟩, fun _ h => by cases h⟩
    · have n2 : ¬ vector = ⟨0, 0, 0⟩ := fun h => by rw [(zero _).mpr h] at hv; cases hv
      refine ⟨⟨fun h => (by cases h), fun h => absurd h (not_or.mpr ⟨n1, n2⟩)⟩, ?_⟩
      intro faces h
      obtain ⟨up, ue, -⟩ := V3.unitVector_spec hu
      obtain ⟨vp, ve, -⟩ := V3.unitVector_spec hv
      cases h
      refine ⟨_, rfl, ?_⟩
      ext p
      have hp : p ∈ (planeRectangularCut ⟨start, ⟨u, v, V3.cross u v⟩⟩ 0 (V3.pointDistance start fin) 0 (V3.norm vector)).points ↔
          ∃ q : V2 ℝ, InHull [⟨0, 0⟩, ⟨V3.norm (fin - start), 0⟩, ⟨V3.norm (fin - start), V3.norm vector⟩, ⟨0, V3.norm vector⟩] q ∧ p = start + V3.smul q.x u + V3.smul q.y v := by
        rw [← norm_neg_sub]
        exact Iff.rfl
      rw [hp]
      simp only [hull_rectangle up vp]
      have key : ∀ s t : ℝ, start + V3.smul (s * V3.norm (fin - start)) u + V3.smul (t * V3.norm vector) v = start + V3.smul s (fin - start) + V3.smul t vector := by
        intro s t
        have ux := congrArg V3.x ue
        have uy := congrArg V3.y ue
        have uz := congrArg V3.z ue
        have vx := congrArg V3.x ve
        have vy := congrArg V3.y ve
        have vz := congrArg V3.z ve
        simp only [V3.smul_x, V3.smul_y, V3.smul_z] at ux uy uz vx vy vz
        ext
        · simp only [V3.add_x, V3.smul_x]; linear_combination -s * ux - t * vx
        · simp only [V3.add_y, V3.smul_y]; linear_combination -s * uy - t * vy
        · simp only [V3.add_z, V3.smul_z]; linear_combination -s * uz - t * vz
      constructor
      · rintro ⟨q, ⟨s, t, s0, s1, t0, t1, rfl⟩, rfl⟩
        exact ⟨s, t, s0, s1, t0, t1, key s t⟩
      · rintro ⟨s, t, s0, s1, t0, t1, rfl⟩
        exact ⟨_, ⟨s, t, s0, s1, t0, t1, rfl⟩, (key s t).symm⟩

lemma area_rectangle {a b : ℝ} (ha : 0 ≤ a) (hb : 0 ≤ b) : polygonArea [(⟨0, 0⟩ : V2 ℝ), ⟨a, 0⟩, ⟨a, b⟩, ⟨0, b⟩] = a * b := by
  unfold polygonArea
  rw [if_neg (by simp)]
  have hr : ∀ w x y z : ℝ, rollRight [w, x, y, z] = [z, w, x, y] := by
    intro w x y z
    unfold rollRight
    simp
  simp only [List.map_cons, List.map_nil, hr, List.zipWith, List.sum_cons, List.sum_nil]
  rw [show (0 * b + (a * 0 + (a * 0 + (0 * b + 0))) - (0 * 0 + (0 * 0 + (b * a + (b * a + 0)))) : ℝ) = -(2 * (a * b)) by ring, abs_neg, abs_of_nonneg (by positivity)]
  ring

/-- Lagrange's identity. -/
lemma norm_cross_sq (a b : V3 ℝ) : V3.norm (V3.cross a b) ^ 2 = (V3.norm a * V3.norm b) ^ 2 - V3.dot a b ^ 2 := by
  unfold V3.norm
  rw [mul_pow, Real.sq_sqrt (by nlinarith [mul_self_nonneg (V3.cross a b).x, mul_self_nonneg (V3.cross a b).y, mul_self_nonneg (V3.cross a b).z]),
    Real.sq_sqrt (by nlinarith [mul_self_nonneg a.x, mul_self_nonneg a.y, mul_self_nonneg a.z]), Real.sq_sqrt (by nlinarith [mul_self_nonneg b.x, mul_self_nonneg b.y, mul_self_nonneg b.z])]
  simp only [V3.cross, V3.dot]
  ring

/-- **C213** (partial) the area of the face is never less than the area of the swept parallelogram, and it is this area exactly for an extrusion vector orthogonal to the segment. -/
theorem C213_area_partial (start fin vector : V3 ℝ) (f : CornerFace) (h : segmentExtrusion start fin vector = some [f]) :
    parallelogramArea start fin vector ≤ f.area ∧ (f.area = parallelogramArea start fin vector ↔ V3.dot (fin - start) vector = 0) := by
  have hf : f.area = V3.norm (fin - start) * V3.norm vector := by
    unfold segmentExtrusion at h
    rcases hu : V3.unitVector (fin - start) with _ | u
    · rw [hu] at h; cases h
    · rcases hv : V3.unitVector vector with _ | v
      · rw [hu, hv] at h; cases h
      · rw [hu, hv] at h
        cases h
        rw [norm_neg_sub]
        exact area_rectangle (Real.sqrt_nonneg _) (Real.sqrt_nonneg _)
  have key := norm_cross_sq (fin - start) vector
  rw [← hf] at key
  have n1 : 0 ≤ parallelogramArea start fin vector := Real.sqrt_nonneg _
  have n2 : 0 ≤ f.area := by rw [hf]; exact mul_nonneg (Real.sqrt_nonneg _) (Real.sqrt_nonneg _)
  change parallelogramArea start fin vector ^ 2 = _ at key
  refine ⟨abs_le_of_sq_le_sq' (by nlinarith [sq_nonneg (V3.dot (fin - start) vector)]) n2 |>.2, ?_, ?_⟩
  · intro e
    rw [e] at key
    exact pow_eq_zero_iff (two_ne_zero) |>.mp (by linarith)
  · intro e
    rw [e] at key
    have hk : f.area ^ 2 = parallelogramArea start fin vector ^ 2 := by linarith
    exact (pow_left_inj₀ n2 n1 two_ne_zero).mp hk

/-- C213 as expected by a user: the area of an extruded segment is the area it sweeps. -/
def C213_full_statement : Prop := ∀ (start fin vector : V3 ℝ) (f : CornerFace), segmentExtrusion start fin vector = some [f] → f.area = parallelogramArea start fin vector

/-- **C213** false: the length of the segment and of the vector are multiplied even if they are not orthogonal. -/
theorem C213_counterexample : ¬ C213_full_statement := by
  intro hfull
  have hs : ∃ f, segmentExtrusion ⟨0, 0, 0⟩ ⟨1, 0, 0⟩ ⟨1, 1, 0⟩ = some [f] := by
    obtain ⟨h1, h2⟩ := C213_extrusion_partial ⟨0, 0, 0⟩ ⟨1, 0, 0⟩ ⟨1, 1, 0⟩
    rcases h : segmentExtrusion ⟨0, 0, 0⟩ ⟨1, 0, 0⟩ ⟨1, 1, 0⟩ with _ | faces
    · rcases h1.mp h with e | e
      · have := congrArg V3.x e; norm_num at this
      · have := congrArg V3.x e; norm_num at this
    · obtain ⟨f, rfl, -⟩ := h2 faces h
      exact ⟨f, rfl⟩
  obtain ⟨f, hf⟩ := hs
  have := (C213_area_partial _ _ _ f hf).2.mp (hfull _ _ _ f hf)
  norm_num [V3.dot] at this

/-- The hypotheses of C213 are met. -/
example : ∃ f, segmentExtrusion ⟨0, 0, 0⟩ ⟨2, 0, 0⟩ ⟨0, 3, 0⟩ = some [f] ∧ f.area = 6 := by
  obtain ⟨h1, h2⟩ := C213_extrusion_partial ⟨0, 0, 0⟩ ⟨2, 0, 0⟩ ⟨0, 3, 0⟩
  rcases h : segmentExtrusion ⟨0, 0, 0⟩ ⟨2, 0, 0⟩ ⟨0, 3, 0⟩ with _ | faces
  · rcases h1.mp h with e | e
    · have := congrArg V3.x e; norm_num at this
    · have := congrArg V3.y e; norm_num at this
  · obtain ⟨f, rfl, -⟩ := h2 faces h
    refine ⟨f, rfl, ?_⟩
    rw [(C213_area_partial _ _ _ f h).2.mpr (by norm_num [V3.dot])]
    unfold parallelogramArea V3.norm V3.cross
    norm_num
    rw [show (36 : ℝ) = 6 ^ 2 by norm_num, Real.sqrt_sq (by norm_num)]

end Volmdlr.Surface
