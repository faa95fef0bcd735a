import Verif.Tri.Model
import Verif.Segment.Props
import Verif.Surface.MoreProps
import Verif.Intersect.LineProps

/-!
# Area, height, middle and normal of a triangle (C99)
-/

namespace Volmdlr.Triangles

open Volmdlr.Intersect

/-- Twice the area vector of the triangle (specification). -/
def areaVector (t : Tri) : V3 ℝ := V3.cross (t.2.1 - t.1) (t.2.2 - t.1)

lemma pd_nonneg (p q : V3 ℝ) : 0 ≤ V3.pointDistance p q := Real.sqrt_nonneg _

lemma pd_sq (p q : V3 ℝ) : V3.pointDistance p q ^ 2 = (p.x - q.x) ^ 2 + (p.y - q.y) ^ 2 + (p.z - q.z) ^ 2 := by
  unfold V3.pointDistance
  rw [V3.norm_pow_two]
  simp only [V3.dot, V3.sub_x, V3.sub_y, V3.sub_z]; ring

lemma heron_identity (t : Tri) :
    let a := V3.pointDistance t.1 t.2.1
    let b := V3.pointDistance t.2.1 t.2.2
    let c := V3.pointDistance t.2.2 t.1
    let s := (a + b + c) / 2
    s * (s - a) * (s - b) * (s - c) = (V3.norm (areaVector t) / 2) ^ 2 := by
  intro a b c s
  have ha := pd_sq t.1 t.2.1
  have hb := pd_sq t.2.1 t.2.2
  have hc := pd_sq t.2.2 t.1
  change a ^ 2 = _ at ha
  change b ^ 2 = _ at hb
  change c ^ 2 = _ at hc
  have e : s * (s - a) * (s - b) * (s - c) = (2 * (a ^ 2 * b ^ 2 + b ^ 2 * c ^ 2 + c ^ 2 * a ^ 2) - (a ^ 2) ^ 2 - (b ^ 2) ^ 2 - (c ^ 2) ^ 2) / 16 := by
    simp only [s]; ring
  rw [e, ha, hb, hc, div_pow, V3.norm_pow_two]
  obtain ⟨⟨x1, y1, z1⟩, ⟨x2, y2, z2⟩, ⟨x3, y3, z3⟩⟩ := t
  simp only [areaVector, V3.dot, V3.cross, V3.sub_x, V3.sub_y, V3.sub_z]
  ring

/-- C99: the area is half the norm of the cross product of two sides. -/
theorem C99_area (t : Tri) : area t = V3.norm (V3.cross (t.2.1 - t.1) (t.2.2 - t.1)) / 2 := by
  unfold area
  have := heron_identity t
  dsimp only at this ⊢
  rw [this, Real.sqrt_sq (div_nonneg (V3.norm_nonneg _) (by norm_num))]
  rfl

lemma areaVector_cycle (a b c : V3 ℝ) : areaVector (b, c, a) = areaVector (a, b, c) := by
  ext <;> simp [areaVector, V3.cross] <;> ring

lemma areaVector_swap (a b c : V3 ℝ) : areaVector (b, a, c) = -areaVector (a, b, c) := by
  ext <;> simp [areaVector, V3.cross] <;> ring

lemma norm_neg3 (u : V3 ℝ) : V3.norm (-u) = V3.norm u := by
  unfold V3.norm; simp

lemma area_cycle (a b c : V3 ℝ) : area (b, c, a) = area (a, b, c) := by
  rw [C99_area, C99_area]
  have := areaVector_cycle a b c
  unfold areaVector at this
  dsimp only at *
  rw [this]

/-- C99: the area does not depend on the order of the points. -/
theorem C99_area_order (a b c : V3 ℝ) : area (b, c, a) = area (a, b, c) ∧ area (b, a, c) = area (a, b, c) := by
  refine ⟨area_cycle a b c, ?_⟩
  rw [C99_area, C99_area]
  have := areaVector_swap a b c
  unfold areaVector at this
  dsimp only at *
  rw [this, norm_neg3]

/-- C99: translations and rotations about unit axes keep the area. -/
theorem C99_area_isometry (a b c offset center axis : V3 ℝ) (angle : ℝ) (h : V3.dot axis axis = 1) :
    area (V3.translation a offset, V3.translation b offset, V3.translation c offset) = area (a, b, c) ∧
    area (V3.rotation a center axis angle, V3.rotation b center axis angle, V3.rotation c center axis angle) = area (a, b, c) := by
  have key : ∀ a' b' c' : V3 ℝ, V3.pointDistance a' b' = V3.pointDistance a b → V3.pointDistance b' c' = V3.pointDistance b c →
      V3.pointDistance c' a' = V3.pointDistance c a → area (a', b', c') = area (a, b, c) := by
    intro a' b' c' h1 h2 h3
    unfold area
    dsimp only
    rw [h1, h2, h3]
  constructor
  · have ht : ∀ p q : V3 ℝ, V3.pointDistance (V3.translation p offset) (V3.translation q offset) = V3.pointDistance p q := by
      intro p q
      refine (sq_eq_sq₀ (pd_nonneg _ _) (pd_nonneg _ _)).1 ?_
      rw [pd_sq, pd_sq]
      simp [V3.translation]
    exact key _ _ _ (ht _ _) (ht _ _) (ht _ _)
  · have ht : ∀ p q : V3 ℝ, V3.pointDistance (V3.rotation p center axis angle) (V3.rotation q center axis angle) = V3.pointDistance p q := by
      intro p q
      refine (sq_eq_sq₀ (pd_nonneg _ _) (pd_nonneg _ _)).1 ?_
      rw [pd_sq, pd_sq]
      have hcs := Real.sin_sq_add_cos_sq angle
      unfold V3.rotation V3.rotationCS
      simp only [V3.dot, V3.cross, V3.sub_x, V3.sub_y, V3.sub_z, V3.smul_x, V3.smul_y, V3.smul_z] at *
      generalize Real.cos angle = co at *
      generalize Real.sin angle = si at *
      obtain ⟨dx, hdx⟩ : ∃ d, d = p.x - q.x := ⟨_, rfl⟩
      obtain ⟨dy, hdy⟩ : ∃ d, d = p.y - q.y := ⟨_, rfl⟩
      obtain ⟨dz, hdz⟩ : ∃ d, d = p.z - q.z := ⟨_, rfl⟩
      have ex : p.x = q.x + dx := by rw [hdx]; ring
      have ey : p.y = q.y + dy := by rw [hdy]; ring
      have ez : p.z = q.z + dz := by rw [hdz]; ring
      rw [ex, ey, ez]
      generalize hk : dx * axis.x + dy * axis.y + dz * axis.z = k
      have e1 : ∀ s : ℝ, (q.x + dx - center.x) * axis.x + (q.y + dy - center.y) * axis.y + (q.z + dz - center.z) * axis.z =
        ((q.x - center.x) * axis.x + (q.y - center.y) * axis.y + (q.z - center.z) * axis.z) + k := by intro s; rw [← hk]; ring
      rw [e1 0]
      linear_combination (dx ^ 2 + dy ^ 2 + dz ^ 2) * hcs + (k ^ 2 * (1 - co) ^ 2 + si ^ 2 * (dx ^ 2 + dy ^ 2 + dz ^ 2)) * h +
        (2 * co * (1 - co) * k - si ^ 2 * (dx * axis.x + dy * axis.y + dz * axis.z + k)) * hk - k ^ 2 * hcs
    exact key _ _ _ (ht _ _) (ht _ _) (ht _ _)

/-- C99: the height is the distance from the third point to the line of the first two. -/
theorem C99_height (t : Tri) (h : t.1 ≠ t.2.1) : ∃ d, height t = some d ∧ IsDistanceToLine t.1 t.2.1 t.2.2 d := by
  obtain ⟨d, hd, hmin⟩ := C73_point_distance3 ⟨t.1, t.2.1⟩ h t.2.2
  refine ⟨d, ?_, hmin⟩
  unfold Line3.pointDistance at hd
  have e : V3.norm (Line3.dir ⟨t.1, t.2.1⟩) = V3.pointDistance t.1 t.2.1 := by
    refine (sq_eq_sq₀ (V3.norm_nonneg _) (pd_nonneg _ _)).1 ?_
    rw [pd_sq, V3.norm_pow_two]
    simp only [Line3.dir, V3.dot, V3.sub_x, V3.sub_y, V3.sub_z]; ring
  rw [e] at hd
  unfold height
  by_cases h0 : V3.pointDistance t.1 t.2.1 = 0
  · rw [if_pos h0] at hd; cases hd
  · rw [if_neg h0] at hd ⊢
    rw [← hd, C99_area]
    congr 1
    have : V3.cross (t.2.2 - t.1) (Line3.dir ⟨t.1, t.2.1⟩) = -V3.cross (t.2.1 - t.1) (t.2.2 - t.1) := by
      ext <;> simp [Line3.dir, V3.cross] <;> ring
    dsimp only at this ⊢
    rw [this, norm_neg3]
    ring

lemma norm_zero_iff (u : V3 ℝ) : V3.norm u = 0 ↔ u = ⟨0, 0, 0⟩ := V3.norm_eq_zero_iff u

/-- C99: a triangle whose points are on a line is refused; any other one has a unit normal, orthogonal to the sides, on the side given by the right hand
rule: it is the area vector divided by its norm. -/
theorem C99_normal (t : Tri) :
    (area t = 0 → normal t = none) ∧
    (area t ≠ 0 → ∃ n, normal t = some n ∧ V3.dot n n = 1 ∧ V3.dot n (t.2.1 - t.1) = 0 ∧ V3.dot n (t.2.2 - t.1) = 0 ∧
      V3.cross (t.2.1 - t.1) (t.2.2 - t.1) = V3.smul (2 * area t) n) := by
  have harea : area t = 0 ↔ V3.cross (t.2.1 - t.1) (t.2.2 - t.1) = ⟨0, 0, 0⟩ := by
    rw [C99_area, div_eq_zero_iff, norm_zero_iff]; simp
  have h63 := C63_from3Points t.1 t.2.1 t.2.2
  unfold normal
  rw [Surface.planeFrom3Points_eq]
  constructor
  · intro h
    rw [h63.1 (harea.1 h)]
    rfl
  · intro h
    obtain ⟨f, hf, -⟩ := h63.2 (fun e => h (harea.2 e))
    rw [hf]
    unfold Frame3.from3Points at hf
    cases h1 : V3.unitVector (t.2.1 - t.1) with
    | none => rw [h1] at hf; cases hf
    | some v1 =>
      cases h2 : V3.unitVector (t.2.2 - t.1) with
      | none => rw [h1, h2] at hf; cases hf
      | some v2 =>
        cases h3 : V3.unitVector (V3.cross v1 v2) with
        | none => simp [h1, h2, h3] at hf
        | some n =>
          have hfw : f.basis.w = n := by
            simp [h1, h2, h3] at hf
            rw [← hf]
          obtain ⟨a1, a2, -⟩ := V3.unitVector_spec h1
          obtain ⟨b1, b2, -⟩ := V3.unitVector_spec h2
          obtain ⟨c1, c2, c3⟩ := V3.unitVector_spec h3
          have hun : V3.unitVector f.basis.w = some n := by
            have hnw : V3.norm n = 1 := by
              refine (sq_eq_sq₀ (V3.norm_nonneg _) one_pos.le).1 ?_
              rw [V3.norm_pow_two, c3]; norm_num
            rw [hfw]
            unfold V3.unitVector
            rw [if_neg (by rw [hnw]; norm_num), hnw]
            simp
          obtain ⟨k, hk⟩ : ∃ k, k = V3.norm (t.2.1 - t.1) * V3.norm (t.2.2 - t.1) * V3.norm (V3.cross v1 v2) := ⟨_, rfl⟩
          have hkpos : 0 < k := by rw [hk]; positivity
          have hcr : V3.cross (t.2.1 - t.1) (t.2.2 - t.1) = V3.smul k n := by
            have x := congrArg V3.x c2
            have y := congrArg V3.y c2
            have z := congrArg V3.z c2
            rw [a2, b2, hk]
            generalize V3.norm (t.2.1 - t.1) = p at *
            generalize V3.norm (t.2.2 - t.1) = q at *
            generalize V3.norm (V3.cross v1 v2) = r at *
            simp only [V3.cross, V3.smul_x, V3.smul_y, V3.smul_z] at *
            ext <;> simp only [V3.smul_x, V3.smul_y, V3.smul_z]
            · linear_combination p * q * x
            · linear_combination p * q * y
            · linear_combination p * q * z
          have hnorm : V3.norm (V3.cross (t.2.1 - t.1) (t.2.2 - t.1)) = k := by
            refine (sq_eq_sq₀ (V3.norm_nonneg _) hkpos.le).1 ?_
            rw [V3.norm_pow_two, hcr]
            simp only [V3.dot, V3.smul_x, V3.smul_y, V3.smul_z] at *
            linear_combination k ^ 2 * c3
          have h2a : 2 * area t = k := by rw [C99_area, hnorm]; ring
          refine ⟨n, hun, c3, ?_, ?_, by rw [h2a, hcr]⟩
          · have : k * V3.dot n (t.2.1 - t.1) = 0 := by
              have : k * V3.dot n (t.2.1 - t.1) = V3.dot (V3.smul k n) (t.2.1 - t.1) := by simp only [V3.dot, V3.smul_x, V3.smul_y, V3.smul_z]; ring
              rw [this, ← hcr]
              simp only [V3.dot, V3.cross]; ring
            exact (mul_eq_zero.1 this).resolve_left hkpos.ne'
          · have : k * V3.dot n (t.2.2 - t.1) = 0 := by
              have : k * V3.dot n (t.2.2 - t.1) = V3.dot (V3.smul k n) (t.2.2 - t.1) := by simp only [V3.dot, V3.smul_x, V3.smul_y, V3.smul_z]; ring
              rw [this, ← hcr]
              simp only [V3.dot, V3.cross]; ring
            exact (mul_eq_zero.1 this).resolve_left hkpos.ne'

/-- C99: reversing the order of the points, as `turn_normals_outwards` does, keeps the middle and reverses the normal. -/
theorem C99_reversed (a b c n : V3 ℝ) (h : normal (a, b, c) = some n) : normal (c, b, a) = some (-n) ∧ middle (c, b, a) = middle (a, b, c) := by
  constructor
  · have ha : area (a, b, c) ≠ 0 := by
      intro e
      rw [(C99_normal (a, b, c)).1 e] at h
      cases h
    have harea : area (c, b, a) = area (a, b, c) := by
      rw [(C99_area_order b c a).2, (C99_area_order a b c).1]
    obtain ⟨n', h', -, -, -, e'⟩ := (C99_normal (c, b, a)).2 (by rw [harea]; exact ha)
    obtain ⟨n'', h'', -, -, -, e''⟩ := (C99_normal (a, b, c)).2 ha
    obtain rfl : n'' = n := Option.some.inj (h''.symm.trans h)
    rw [h']
    have e : V3.cross (b - c) (a - c) = -V3.cross (b - a) (c - a) := by ext <;> simp [V3.cross] <;> ring
    dsimp only at e' e''
    rw [e, e'', harea] at e'
    have x := congrArg V3.x e'
    have y := congrArg V3.y e'
    have z := congrArg V3.z e'
    simp only [V3.neg_x, V3.neg_y, V3.neg_z, V3.smul_x, V3.smul_y, V3.smul_z] at x y z
    congr 1
    have h2 : (2 * area (a, b, c)) ≠ 0 := mul_ne_zero two_ne_zero ha
    ext
    · exact mul_right_cancel₀ h2 (by simp only [V3.neg_x]; linarith)
    · exact mul_right_cancel₀ h2 (by simp only [V3.neg_y]; linarith)
    · exact mul_right_cancel₀ h2 (by simp only [V3.neg_z]; linarith)
  · unfold middle
    ext <;> simp <;> ring

/-- C99: the middle is the only point for which the sum of the squares of the distances to the three points is the least. -/
theorem C99_middle (t : Tri) (p : V3 ℝ) :
    let S := fun q : V3 ℝ => V3.pointDistance q t.1 ^ 2 + V3.pointDistance q t.2.1 ^ 2 + V3.pointDistance q t.2.2 ^ 2
    S (middle t) ≤ S p ∧ (S p = S (middle t) → p = middle t) := by
  intro S
  have e : S p = S (middle t) + 3 * ((p.x - (middle t).x) ^ 2 + (p.y - (middle t).y) ^ 2 + (p.z - (middle t).z) ^ 2) := by
    simp only [S, pd_sq, middle, V3.add_x, V3.add_y, V3.add_z]; ring
  refine ⟨by rw [e]; nlinarith [sq_nonneg (p.x - (middle t).x), sq_nonneg (p.y - (middle t).y), sq_nonneg (p.z - (middle t).z)], fun h => ?_⟩
  have h0 : (p.x - (middle t).x) ^ 2 + (p.y - (middle t).y) ^ 2 + (p.z - (middle t).z) ^ 2 = 0 := by linarith
  have hx : (p.x - (middle t).x) ^ 2 = 0 := by nlinarith [sq_nonneg (p.x - (middle t).x), sq_nonneg (p.y - (middle t).y), sq_nonneg (p.z - (middle t).z)]
  have hy : (p.y - (middle t).y) ^ 2 = 0 := by nlinarith [sq_nonneg (p.x - (middle t).x), sq_nonneg (p.y - (middle t).y), sq_nonneg (p.z - (middle t).z)]
  have hz : (p.z - (middle t).z) ^ 2 = 0 := by nlinarith [sq_nonneg (p.x - (middle t).x), sq_nonneg (p.y - (middle t).y), sq_nonneg (p.z - (middle t).z)]
  ext
  · linarith [pow_eq_zero_iff (two_ne_zero) |>.1 hx]
  · linarith [pow_eq_zero_iff (two_ne_zero) |>.1 hy]
  · linarith [pow_eq_zero_iff (two_ne_zero) |>.1 hz]

/-- The triangle of sides three, four and five. -/
def egyptian : Tri := (⟨0, 0, 0⟩, ⟨3, 0, 0⟩, ⟨0, 4, 0⟩)

lemma egyptian_area : area egyptian = 6 := by
  rw [C99_area]
  have : V3.cross (egyptian.2.1 - egyptian.1) (egyptian.2.2 - egyptian.1) = ⟨0, 0, 12⟩ := by ext <;> simp [V3.cross, egyptian]; norm_num
  rw [this]
  unfold V3.norm
  rw [show (0 : ℝ) * 0 + 0 * 0 + 12 * 12 = 12 ^ 2 by norm_num, Real.sqrt_sq (by norm_num)]
  norm_num

/-- Non-vacuity of `C99_height`, `C99_normal` and `C99_reversed`. -/
example : egyptian.1 ≠ egyptian.2.1 ∧ area egyptian ≠ 0 ∧ ∃ n, normal egyptian = some n := by
  refine ⟨fun e => by simpa [egyptian] using congrArg V3.x e, by rw [egyptian_area]; norm_num, ?_⟩
  obtain ⟨n, h, -⟩ := (C99_normal egyptian).2 (by rw [egyptian_area]; norm_num)
  exact ⟨n, h⟩

/-- Non-vacuity of `C99_area_isometry`. -/
example : V3.dot (⟨0, 3 / 5, 4 / 5⟩ : V3 ℝ) ⟨0, 3 / 5, 4 / 5⟩ = 1 := by simp [V3.dot]; norm_num

end Volmdlr.Triangles
