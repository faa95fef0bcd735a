import Verif.Conic.CircleLineProps
import Verif.Fillet.RadiiProps
import Verif.Frame.Props

/-!
# Symmetries, distances, discretisation and boxes of circles and ellipses (C96)
-/

namespace Volmdlr.Conic

open Volmdlr.Angle Volmdlr.Arc Volmdlr.Intersect

/-- A point of the circle (specification). -/
def OnCircle (c : Circle2) (p : V2 ℝ) : Prop := V2.pointDistance p c.frame.origin = c.radius

/-! ## Symmetries -/

/-- The full statement: the image of a circle by the symmetry about a point is the set of the symmetric points. -/
def C96_point_symmetric_full_statement : Prop :=
  ∀ (c : Circle2) (p q : V2 ℝ), 0 < c.radius → (OnCircle (Circle2.pointSymmetric c p) q ↔ OnCircle c ⟨2 * p.x - q.x, 2 * p.y - q.y⟩)

/-- C96: `point_symmetric` of a circle centred at the origin is the set of the symmetric points. -/
theorem C96_point_symmetric_partial (c : Circle2) (hc : c.frame.origin = ⟨0, 0⟩) (p q : V2 ℝ) (hr : 0 < c.radius) :
    OnCircle (Circle2.pointSymmetric c p) q ↔ OnCircle c ⟨2 * p.x - q.x, 2 * p.y - q.y⟩ := by
  unfold OnCircle
  rw [onCircle_iff _ _ hr, show (Circle2.pointSymmetric c p).radius = c.radius from rfl, onCircle_iff _ _ hr]
  unfold Circle2.pointSymmetric Circle2.translation V2.translation
  simp only [V2.sub_x, V2.sub_y, V2.smul_x, V2.smul_y, hc]
  rw [show (q.x - (0 + (p.x * 2 - 0))) ^ 2 + (q.y - (0 + (p.y * 2 - 0))) ^ 2 = (2 * p.x - q.x - 0) ^ 2 + (2 * p.y - q.y - 0) ^ 2 by ring]

example : (⟨⟨⟨0, 0⟩, ⟨⟨1, 0⟩, ⟨0, 1⟩⟩⟩, 2⟩ : Circle2).frame.origin = ⟨0, 0⟩ ∧ (0 : ℝ) < 2 := ⟨rfl, by norm_num⟩

/-- C96: false for any other centre.  The symmetric about the origin of the unit circle centred at `(3, 0)` is the circle centred at the origin
instead of `(-3, 0)`: the offset `2 p - c` is the symmetric of the centre, and it is added to the centre. -/
theorem C96_point_symmetric_counterexample : ¬C96_point_symmetric_full_statement := by
  intro hfull
  have h := (hfull ⟨⟨⟨3, 0⟩, ⟨⟨1, 0⟩, ⟨0, 1⟩⟩⟩, 1⟩ ⟨0, 0⟩ ⟨-4, 0⟩ (by norm_num)).2 (by
    unfold OnCircle; rw [onCircle_iff _ _ (by norm_num)]; norm_num)
  unfold OnCircle at h
  rw [onCircle_iff _ _ (by norm_num [Circle2.pointSymmetric, Circle2.translation])] at h
  norm_num [Circle2.pointSymmetric, Circle2.translation, V2.translation, V2.sub_x, V2.sub_y, V2.smul_x, V2.smul_y] at h

/-- Two points symmetric about the line `(a, b)`: their middle is on the line and they are on an orthogonal to it (specification). -/
def Mirror (a b p q : V2 ℝ) : Prop :=
  OnLine2 a b ⟨(p.x + q.x) / 2, (p.y + q.y) / 2⟩ ∧ V2.dot (q - p) (b - a) = 0

/-- C96: `axial_symmetry` is defined for every true line, and its points are the points symmetric to those of the circle. -/
theorem C96_axial_symmetry (c : Circle2) (l : Line2) (hl : l.point1 ≠ l.point2) (hr : 0 < c.radius) :
    ∃ c', Circle2.axialSymmetry c l = some c' ∧ ∀ p q, Mirror l.point1 l.point2 p q → (OnCircle c' q ↔ OnCircle c p) := by
  obtain ⟨t, ht, -, hs⟩ := axialSymmetry_eq c.frame.origin l.point1 l.point2 hl
  unfold Circle2.axialSymmetry
  rw [hs]
  refine ⟨_, rfl, ?_⟩
  rintro p q ⟨⟨s, s1, s2⟩, h2⟩
  unfold OnCircle
  rw [onCircle_iff _ _ hr]
  change V2.pointDistance q _ = c.radius ↔ _
  rw [onCircle_iff _ _ hr]
  unfold Circle2.translation V2.translation
  simp only [V2.dot, V2.sub_x, V2.sub_y, V2.add_x, V2.add_y, V2.smul_x, V2.smul_y] at *
  have ex : q.x = 2 * (l.point1.x + s * (l.point2.x - l.point1.x)) - p.x := by linarith
  have ey : q.y = 2 * (l.point1.y + s * (l.point2.y - l.point1.y)) - p.y := by linarith
  clear s1 s2 hs
  rw [ex, ey] at h2 ⊢
  have key : ∀ A B : ℝ, A = B → (A = c.radius ^ 2 ↔ B = c.radius ^ 2) := fun A B e => by rw [e]
  apply key
  have hdx := dir_pos hl
  generalize c.frame.origin.x = cx at *
  generalize c.frame.origin.y = cy at *
  generalize hux : l.point2.x - l.point1.x = ux at *
  generalize huy : l.point2.y - l.point1.y = uy at *
  generalize l.point1.x = ax at *
  generalize l.point1.y = ay at *
  linear_combination (4 * s - 4 * t) * (h2 / 2) * 1 - 4 * (s - t) * ht

example : Mirror (⟨0, 0⟩ : V2 ℝ) ⟨1, 0⟩ ⟨2, 3⟩ ⟨2, -3⟩ :=
  ⟨⟨2, by norm_num, by norm_num⟩, by norm_num [V2.dot, V2.sub_x, V2.sub_y]⟩

/-! ## Distance and disk -/

lemma dist_comm2 (p q : V2 ℝ) : V2.pointDistance p q = V2.pointDistance q p := by
  unfold V2.pointDistance V2.norm; congr 1; simp only [V2.sub_x, V2.sub_y]; ring

/-- The point of the ray from `c` through `p` at a distance. -/
lemma ray_point (c p : V2 ℝ) {r : ℝ} (hr : 0 ≤ r) : ∃ q, V2.pointDistance q c = r ∧ V2.pointDistance p q = |V2.pointDistance p c - r| := by
  have h0 : 0 ≤ V2.pointDistance p c := Real.sqrt_nonneg _
  have hsq : V2.pointDistance p c ^ 2 = (p.x - c.x) ^ 2 + (p.y - c.y) ^ 2 := by
    unfold V2.pointDistance; rw [V2.norm_pow_two]; simp only [V2.dot, V2.sub_x, V2.sub_y]; ring
  have key : ∀ (a b : V2 ℝ) (z : ℝ), 0 ≤ z → (a.x - b.x) ^ 2 + (a.y - b.y) ^ 2 = z ^ 2 → V2.pointDistance a b = z := by
    intro a b z hz e
    have h1 : 0 ≤ V2.pointDistance a b := Real.sqrt_nonneg _
    refine (sq_eq_sq₀ h1 hz).1 ?_
    rw [← e]; unfold V2.pointDistance; rw [V2.norm_pow_two]; simp only [V2.dot, V2.sub_x, V2.sub_y]; ring
  generalize V2.pointDistance p c = D at *
  rcases h0.eq_or_lt with e | hD
  · rw [← e] at hsq ⊢
    have ex : p.x - c.x = 0 := by nlinarith [sq_nonneg (p.x - c.x), sq_nonneg (p.y - c.y)]
    have ey : p.y - c.y = 0 := by nlinarith [sq_nonneg (p.x - c.x), sq_nonneg (p.y - c.y)]
    refine ⟨⟨c.x + r, c.y⟩, key _ _ _ hr (by ring), key _ _ _ (abs_nonneg _) ?_⟩
    rw [sq_abs]; dsimp only
    rw [show p.x = c.x by linarith, show p.y = c.y by linarith]; ring
  · refine ⟨⟨c.x + r / D * (p.x - c.x), c.y + r / D * (p.y - c.y)⟩, key _ _ _ hr ?_, key _ _ _ (abs_nonneg _) ?_⟩
    · dsimp only
      have : (c.x + r / D * (p.x - c.x) - c.x) ^ 2 + (c.y + r / D * (p.y - c.y) - c.y) ^ 2 = (r / D) ^ 2 * D ^ 2 := by rw [hsq]; ring
      rw [this]; field_simp
    · rw [sq_abs]; dsimp only
      have : (p.x - (c.x + r / D * (p.x - c.x))) ^ 2 + (p.y - (c.y + r / D * (p.y - c.y))) ^ 2 = (1 - r / D) ^ 2 * D ^ 2 := by rw [hsq]; ring
      rw [this]; field_simp

/-- C96: `point_distance` is the distance from the point to the circle: it is attained and it is a minimum. -/
theorem C96_point_distance (c : Circle2) (hr : 0 ≤ c.radius) (p : V2 ℝ) :
    (∃ q, OnCircle c q ∧ V2.pointDistance p q = Circle2.pointDistance c p) ∧ ∀ q, OnCircle c q → Circle2.pointDistance c p ≤ V2.pointDistance p q := by
  constructor
  · exact ray_point c.frame.origin p hr
  · intro q hq
    unfold Circle2.pointDistance
    rw [← hq]
    have h1 := Fillet.pd2_triangle p c.frame.origin q
    have h2 := Fillet.pd2_triangle q c.frame.origin p
    rw [dist_comm2 q p] at h2
    rw [abs_le]
    constructor <;> linarith

/-- C96: `point_belongs` with the border accepts exactly the points within the tolerance of the disk. -/
theorem C96_point_belongs (c : Circle2) (hr : 0 ≤ c.radius) (p : V2 ℝ) (tol : ℝ) (ht : 0 ≤ tol) :
    Circle2.pointBelongs c p true tol = true ↔ ∃ q, V2.pointDistance q c.frame.origin ≤ c.radius ∧ V2.pointDistance p q ≤ tol := by
  classical
  unfold Circle2.pointBelongs
  rw [if_pos rfl, decide_eq_true_iff]
  constructor
  · intro h
    by_cases hin : V2.pointDistance p c.frame.origin ≤ c.radius
    · refine ⟨p, hin, ?_⟩
      have : V2.pointDistance p p = 0 := by
        unfold V2.pointDistance; rw [V2.norm_eq_zero_iff]; ext <;> simp
      rw [this]; exact ht
    · obtain ⟨q, q1, q2⟩ := ray_point c.frame.origin p hr
      refine ⟨q, q1.le, ?_⟩
      rw [q2, abs_of_pos (by linarith [not_le.1 hin])]
      linarith
  · rintro ⟨q, q1, q2⟩
    have := Fillet.pd2_triangle p c.frame.origin q
    linarith

/-! ## Discretisation -/

/-- C96: `discretization_points` gives the asked number of points of the circle, from the origin of the angles and back to it, consecutive points
being at the same distance, `2 r sin(π/(n-1))`. -/
theorem C96_discretization (c : Circle2) (h : c.Good) (n : ℕ) (hn : 2 ≤ n) :
    (Circle2.discretizationPoints c n).length = n ∧
      (∀ i (hi : i < (Circle2.discretizationPoints c n).length), OnCircle c (Circle2.discretizationPoints c n)[i] ∧
        (Circle2.discretizationPoints c n)[i] = c.at (2 * Real.pi * i / (n - 1))) ∧
      (∀ i (hi : i + 1 < (Circle2.discretizationPoints c n).length),
        V2.pointDistance (Circle2.discretizationPoints c n)[i] (Circle2.discretizationPoints c n)[i + 1] = 2 * c.radius * Real.sin (Real.pi / (n - 1))) ∧
      (Circle2.discretizationPoints c n).head? = (Circle2.discretizationPoints c n).getLast? := by
  have hlen : (Circle2.discretizationPoints c n).length = n := by simp [Circle2.discretizationPoints, npLinspace]
  have hn1 : (0 : ℝ) < n - 1 := by
    have : (2 : ℝ) ≤ n := by exact_mod_cast hn
    linarith
  have hat : ∀ i (hi : i < (Circle2.discretizationPoints c n).length), (Circle2.discretizationPoints c n)[i] = c.at (2 * Real.pi * i / (n - 1)) := by
    intro i hi
    simp only [Circle2.discretizationPoints, npLinspace, List.getElem_map, List.getElem_range, Circle2.at]
    rw [show 0 + (i : ℝ) * ((2 * Real.pi - 0) / (n - 1)) = 2 * Real.pi * i / (n - 1) by ring]
    ext
    · simp only [V2.add_x, V2.smul_x]; ring
    · simp only [V2.add_y, V2.smul_y]; ring
  refine ⟨hlen, ?_, ?_, ?_⟩
  · intro i hi
    refine ⟨?_, hat i hi⟩
    rw [hat i hi]
    unfold OnCircle
    rw [onCircle_iff _ _ h.pos]
    obtain ⟨uu, vv, uv, hr⟩ := h
    unfold Circle2.at
    dsimp only
    have := Real.sin_sq_add_cos_sq (2 * Real.pi * i / (n - 1))
    generalize Real.sin (2 * Real.pi * i / (n - 1)) = S at *
    generalize Real.cos (2 * Real.pi * i / (n - 1)) = C at *
    linear_combination c.radius ^ 2 * (C ^ 2 * uu + S ^ 2 * vv + 2 * S * C * uv + this)
  · intro i hi
    rw [hat _ hi, hat i (by omega)]
    have hs : 0 ≤ Real.sin (Real.pi / (n - 1)) := by
      apply Real.sin_nonneg_of_nonneg_of_le_pi (by positivity)
      rw [div_le_iff₀ hn1]
      have : (2 : ℝ) ≤ n := by exact_mod_cast hn
      nlinarith [Real.pi_pos]
    have h0 : ∀ a b : V2 ℝ, 0 ≤ V2.pointDistance a b := fun a b => Real.sqrt_nonneg _
    refine (sq_eq_sq₀ (h0 _ _) (mul_nonneg (by linarith [h.pos]) hs)).1 ?_
    rw [h.dist_sq]
    rw [show 2 * Real.pi * (i : ℝ) / (n - 1) - 2 * Real.pi * ((i + 1 : ℕ) : ℝ) / (n - 1) = -(2 * (Real.pi / (n - 1))) by push_cast; ring]
    rw [Real.cos_neg, Real.cos_two_mul, mul_pow, Real.sin_sq]
    ring
  · rw [List.head?_eq_getElem?, List.getLast?_eq_getElem?]
    rw [List.getElem?_eq_getElem (by omega), List.getElem?_eq_getElem (by omega), hat, hat, hlen]
    congr 1
    rw [Nat.cast_sub (by omega)]
    have : 2 * Real.pi * ((n : ℝ) - (1 : ℕ)) / (n - 1) = 2 * Real.pi := by
      rw [Nat.cast_one]; field_simp
    rw [this]
    simp [Circle2.at]

example : unitCircle.Good := ⟨by norm_num [unitCircle], by norm_num [unitCircle], by norm_num [unitCircle], by norm_num [unitCircle]⟩

/-! ## Boxes -/

/-- C96: the bounding rectangle of a circle is the smallest one: each side is attained and is an extremum. -/
theorem C96_rectangle (c : Circle2) (hr : 0 < c.radius) :
    IsLeast {x | ∃ p, OnCircle c p ∧ p.x = x} (Circle2.boundingRectangle c).xmin ∧ IsGreatest {x | ∃ p, OnCircle c p ∧ p.x = x} (Circle2.boundingRectangle c).xmax ∧
      IsLeast {y | ∃ p, OnCircle c p ∧ p.y = y} (Circle2.boundingRectangle c).ymin ∧ IsGreatest {y | ∃ p, OnCircle c p ∧ p.y = y} (Circle2.boundingRectangle c).ymax := by
  unfold OnCircle Circle2.boundingRectangle
  simp only [onCircle_iff _ _ hr]
  refine ⟨⟨⟨⟨c.frame.origin.x - c.radius, c.frame.origin.y⟩, by ring, rfl⟩, ?_⟩, ⟨⟨⟨c.frame.origin.x + c.radius, c.frame.origin.y⟩, by ring, rfl⟩, ?_⟩,
    ⟨⟨⟨c.frame.origin.x, c.frame.origin.y - c.radius⟩, by ring, rfl⟩, ?_⟩, ⟨⟨⟨c.frame.origin.x, c.frame.origin.y + c.radius⟩, by ring, rfl⟩, ?_⟩⟩
  all_goals
    rintro z ⟨p, hp, rfl⟩
    have h1 : |p.x - c.frame.origin.x| ≤ c.radius := abs_le_of_sq_le_sq (by nlinarith [sq_nonneg (p.y - c.frame.origin.y)]) hr.le
    have h2 : |p.y - c.frame.origin.y| ≤ c.radius := abs_le_of_sq_le_sq (by nlinarith [sq_nonneg (p.x - c.frame.origin.x)]) hr.le
    rw [abs_le] at h1 h2
    linarith [h1.1, h1.2, h2.1, h2.2]

/-- The smallest of four values around `o`. -/
lemma four_min (o A B : ℝ) : min (min (min (o - A) (o + A)) (o - B)) (o + B) = o - max |A| |B| := by
  rcases le_total 0 A with hA | hA <;> rcases le_total 0 B with hB | hB <;>
    simp only [abs_of_nonneg, abs_of_nonpos, hA, hB] <;>
    simp only [min_def, max_def] <;> split_ifs <;> linarith

lemma four_max (o A B : ℝ) : max (max (max (o - A) (o + A)) (o - B)) (o + B) = o + max |A| |B| := by
  rcases le_total 0 A with hA | hA <;> rcases le_total 0 B with hB | hB <;>
    simp only [abs_of_nonneg, abs_of_nonpos, hA, hB] <;>
    simp only [max_def] <;> split_ifs <;> linarith

/-- The extent of `A cos + B sin` is `√(A² + B²)`; it is within the largest of `|A|`, `|B|` only when one of the two is zero. -/
lemma extent_iff (A B : ℝ) : (∀ t, |A * Real.cos t + B * Real.sin t| ≤ max |A| |B|) ↔ A * B = 0 := by
  constructor
  · intro h
    set z : ℂ := ⟨A, B⟩ with hzdef
    have hc : ‖z‖ * Real.cos z.arg = A := Complex.norm_mul_cos_arg z
    have hs : ‖z‖ * Real.sin z.arg = B := Complex.norm_mul_sin_arg z
    have h1 := h z.arg
    have hR0 : 0 ≤ ‖z‖ := norm_nonneg z
    have hsc := Real.sin_sq_add_cos_sq z.arg
    generalize Real.cos z.arg = C at *
    generalize Real.sin z.arg = S at *
    generalize ‖z‖ = R at *
    have e : A * C + B * S = R := by rw [← hc, ← hs]; linear_combination R * hsc
    rw [e, abs_of_nonneg hR0] at h1
    have hRR : A ^ 2 + B ^ 2 = R ^ 2 := by rw [← hc, ← hs]; linear_combination R ^ 2 * hsc
    rcases le_total |A| |B| with h2 | h2
    · rw [max_eq_right h2] at h1
      have h3 : R ^ 2 ≤ |B| ^ 2 := pow_le_pow_left₀ hR0 h1 2
      rw [sq_abs] at h3
      have : A = 0 := by
        have : A ^ 2 = 0 := le_antisymm (by linarith) (sq_nonneg A)
        exact pow_eq_zero_iff two_ne_zero |>.1 this
      rw [this, zero_mul]
    · rw [max_eq_left h2] at h1
      have h3 : R ^ 2 ≤ |A| ^ 2 := pow_le_pow_left₀ hR0 h1 2
      rw [sq_abs] at h3
      have : B = 0 := by
        have : B ^ 2 = 0 := le_antisymm (by linarith) (sq_nonneg B)
        exact pow_eq_zero_iff two_ne_zero |>.1 this
      rw [this, mul_zero]
  · intro h t
    rcases mul_eq_zero.1 h with e | e
    · rw [e, zero_mul, zero_add, abs_mul]
      exact le_max_of_le_right (mul_le_of_le_one_right (abs_nonneg _) (Real.abs_sin_le_one t))
    · rw [e, zero_mul, add_zero, abs_mul]
      exact le_max_of_le_left (mul_le_of_le_one_right (abs_nonneg _) (Real.abs_cos_le_one t))

lemma extent_sqrt (A B t : ℝ) : |A * Real.cos t + B * Real.sin t| ≤ Real.sqrt 2 * max |A| |B| := by
  have hm : 0 ≤ max |A| |B| := le_max_of_le_left (abs_nonneg _)
  refine abs_le_of_sq_le_sq ?_ (mul_nonneg (Real.sqrt_nonneg _) hm)
  rw [mul_pow, Real.sq_sqrt (by norm_num)]
  have h1 : A ^ 2 ≤ max |A| |B| ^ 2 := by rw [← sq_abs A]; exact pow_le_pow_left₀ (abs_nonneg _) (le_max_left _ _) 2
  have h2 : B ^ 2 ≤ max |A| |B| ^ 2 := by rw [← sq_abs B]; exact pow_le_pow_left₀ (abs_nonneg _) (le_max_right _ _) 2
  have := Real.sin_sq_add_cos_sq t
  nlinarith [sq_nonneg (A * Real.sin t - B * Real.cos t)]

/-- The point of an ellipse at an angle of its parametrisation (specification). -/
noncomputable def ellipsePoint (f : Frame2 ℝ) (a b t : ℝ) : V2 ℝ :=
  ⟨f.origin.x + a * Real.cos t * f.basis.u.x + b * Real.sin t * f.basis.v.x, f.origin.y + a * Real.cos t * f.basis.u.y + b * Real.sin t * f.basis.v.y⟩

/-- Being in a rectangle. -/
def Rect.Mem (r : Rect) (p : V2 ℝ) : Prop := r.xmin ≤ p.x ∧ p.x ≤ r.xmax ∧ r.ymin ≤ p.y ∧ p.y ≤ r.ymax

/-- The full statement: the bounding rectangle of an ellipse contains the ellipse. -/
def C96_ellipse_full_statement : Prop :=
  ∀ (f : Frame2 ℝ) (a b t : ℝ), Ortho2 f → 0 < b → b ≤ a → (ellipseRectangle f a b).Mem (ellipsePoint f a b t)

lemma ellipseRectangle_eq (f : Frame2 ℝ) (a b : ℝ) : ellipseRectangle f a b =
    ⟨f.origin.x - max |a * f.basis.u.x| |b * f.basis.v.x|, f.origin.x + max |a * f.basis.u.x| |b * f.basis.v.x|,
     f.origin.y - max |a * f.basis.u.y| |b * f.basis.v.y|, f.origin.y + max |a * f.basis.u.y| |b * f.basis.v.y|⟩ := by
  unfold ellipseRectangle
  simp only [V2.sub_x, V2.sub_y, V2.add_x, V2.add_y, V2.smul_x, V2.smul_y]
  rw [four_min, four_min, four_max, four_max, mul_comm f.basis.u.x, mul_comm f.basis.v.x, mul_comm f.basis.u.y, mul_comm f.basis.v.y]

/-- C96: the bounding rectangle of an ellipse contains the ellipse exactly when its axes are parallel to those of the plane; in every case the
ellipse is in the rectangle enlarged `√2` times. -/
theorem C96_ellipse_rectangle_partial (f : Frame2 ℝ) (ho : Ortho2 f) (a b : ℝ) (ha : 0 < a) (hb : 0 < b) :
    ((∀ t, (ellipseRectangle f a b).Mem (ellipsePoint f a b t)) ↔ f.basis.u.x = 0 ∨ f.basis.u.y = 0) ∧
    ∀ t, |(ellipsePoint f a b t).x - f.origin.x| ≤ Real.sqrt 2 * ((ellipseRectangle f a b).xmax - f.origin.x) ∧
      |(ellipsePoint f a b t).y - f.origin.y| ≤ Real.sqrt 2 * ((ellipseRectangle f a b).ymax - f.origin.y) := by
  rw [ellipseRectangle_eq]
  have hx : ∀ t, (ellipsePoint f a b t).x - f.origin.x = a * f.basis.u.x * Real.cos t + b * f.basis.v.x * Real.sin t := by
    intro t; unfold ellipsePoint; ring
  have hy : ∀ t, (ellipsePoint f a b t).y - f.origin.y = a * f.basis.u.y * Real.cos t + b * f.basis.v.y * Real.sin t := by
    intro t; unfold ellipsePoint; ring
  constructor
  · have hmem : (∀ t, (⟨f.origin.x - max |a * f.basis.u.x| |b * f.basis.v.x|, f.origin.x + max |a * f.basis.u.x| |b * f.basis.v.x|,
        f.origin.y - max |a * f.basis.u.y| |b * f.basis.v.y|, f.origin.y + max |a * f.basis.u.y| |b * f.basis.v.y|⟩ : Rect).Mem (ellipsePoint f a b t)) ↔
        (∀ t, |a * f.basis.u.x * Real.cos t + b * f.basis.v.x * Real.sin t| ≤ max |a * f.basis.u.x| |b * f.basis.v.x|) ∧
        (∀ t, |a * f.basis.u.y * Real.cos t + b * f.basis.v.y * Real.sin t| ≤ max |a * f.basis.u.y| |b * f.basis.v.y|) := by
      rw [← forall_and]
      apply forall_congr'
      intro t
      rw [← hx, ← hy, abs_le, abs_le]
      unfold Rect.Mem
      dsimp only
      constructor
      · rintro ⟨h1, h2, h3, h4⟩
        exact ⟨⟨by linarith, by linarith⟩, by linarith, by linarith⟩
      · rintro ⟨⟨h1, h2⟩, h3, h4⟩
        exact ⟨by linarith, by linarith, by linarith, by linarith⟩
    rw [hmem, extent_iff, extent_iff]
    obtain ⟨uu, vv, uv⟩ := ho
    unfold V2.dot at uu vv uv
    constructor
    · rintro ⟨h1, -⟩
      rcases mul_eq_zero.1 h1 with e | e
      · exact Or.inl ((mul_eq_zero.1 e).resolve_left ha.ne')
      · right
        have hvx := (mul_eq_zero.1 e).resolve_left hb.ne'
        rw [hvx] at uv vv
        have hvy : f.basis.v.y ≠ 0 := by intro e0; rw [e0] at vv; norm_num at vv
        have : f.basis.u.y * f.basis.v.y = 0 := by linarith
        exact (mul_eq_zero.1 this).resolve_right hvy
    · rintro (e | e)
      · rw [e] at uu uv
        have huy : f.basis.u.y ≠ 0 := by intro e0; rw [e0] at uu; norm_num at uu
        have : f.basis.u.y * f.basis.v.y = 0 := by linarith
        have hvy := (mul_eq_zero.1 this).resolve_left huy
        rw [e, hvy]; constructor <;> ring
      · rw [e] at uu uv
        have hux : f.basis.u.x ≠ 0 := by intro e0; rw [e0] at uu; norm_num at uu
        have : f.basis.u.x * f.basis.v.x = 0 := by linarith
        have hvx := (mul_eq_zero.1 this).resolve_left hux
        rw [e, hvx]; constructor <;> ring
  · intro t
    rw [hx, hy]
    dsimp only
    rw [add_sub_cancel_left, add_sub_cancel_left]
    exact ⟨extent_sqrt _ _ _, extent_sqrt _ _ _⟩

/-- C96: false for a turned ellipse: with half axes 2 and 1 along `(3/5, 4/5)` the ellipse leaves the rectangle. -/
theorem C96_ellipse_counterexample : ¬C96_ellipse_full_statement := by
  intro hfull
  have ho : Ortho2 ⟨⟨0, 0⟩, ⟨⟨3 / 5, 4 / 5⟩, ⟨-4 / 5, 3 / 5⟩⟩⟩ := ⟨by norm_num [V2.dot], by norm_num [V2.dot], by norm_num [V2.dot]⟩
  have := (C96_ellipse_rectangle_partial _ ho 2 1 (by norm_num) (by norm_num)).1.1 fun t => hfull _ 2 1 t ho (by norm_num) (by norm_num)
  norm_num at this

/-- The point of a circle of space at an angle (specification). -/
noncomputable def circlePoint3 (c : Circle3) (t : ℝ) : V3 ℝ :=
  c.frame.origin + V3.smul (c.radius * Real.cos t) c.frame.basis.u + V3.smul (c.radius * Real.sin t) c.frame.basis.v

/-- Being in a box given by its lower and upper corners. -/
def InBox (b : V3 ℝ × V3 ℝ) (p : V3 ℝ) : Prop :=
  b.1.x ≤ p.x ∧ p.x ≤ b.2.x ∧ b.1.y ≤ p.y ∧ p.y ≤ b.2.y ∧ b.1.z ≤ p.z ∧ p.z ≤ b.2.z

/-- The full statement: the bounding box of a circle contains the circle. -/
def C96_circle3_full_statement : Prop :=
  ∀ (c : Circle3) (t : ℝ), Orthonormal3 c.frame.basis → 0 < c.radius → InBox (Circle3.boundingBox c) (circlePoint3 c t)

lemma four_min' (o A B : ℝ) : min (min (min (o + A) (o + -A)) (o + B)) (o + -B) = o - max |A| |B| := by
  rw [← abs_neg A, ← abs_neg B, ← four_min, sub_neg_eq_add, sub_neg_eq_add]

lemma four_max' (o A B : ℝ) : max (max (max (o + A) (o + -A)) (o + B)) (o + -B) = o + max |A| |B| := by
  rw [← abs_neg A, ← abs_neg B, ← four_max, sub_neg_eq_add, sub_neg_eq_add]

/-- C96: the bounding box of a circle of space contains the circle exactly when, along each axis of space, one of the axes of the circle has no
component; in every case the circle is in the box enlarged `√2` times. -/
theorem C96_circle3_box_partial (c : Circle3) (hr : 0 < c.radius) :
    ((∀ t, InBox (Circle3.boundingBox c) (circlePoint3 c t)) ↔ c.frame.basis.u.x * c.frame.basis.v.x = 0 ∧ c.frame.basis.u.y * c.frame.basis.v.y = 0 ∧
      c.frame.basis.u.z * c.frame.basis.v.z = 0) ∧
    ∀ t, |(circlePoint3 c t).x - c.frame.origin.x| ≤ Real.sqrt 2 * ((Circle3.boundingBox c).2.x - c.frame.origin.x) ∧
      |(circlePoint3 c t).y - c.frame.origin.y| ≤ Real.sqrt 2 * ((Circle3.boundingBox c).2.y - c.frame.origin.y) ∧
      |(circlePoint3 c t).z - c.frame.origin.z| ≤ Real.sqrt 2 * ((Circle3.boundingBox c).2.z - c.frame.origin.z) := by
  have hbox : Circle3.boundingBox c =
      (⟨c.frame.origin.x - max |c.radius * c.frame.basis.u.x| |c.radius * c.frame.basis.v.x|, c.frame.origin.y - max |c.radius * c.frame.basis.u.y| |c.radius * c.frame.basis.v.y|,
        c.frame.origin.z - max |c.radius * c.frame.basis.u.z| |c.radius * c.frame.basis.v.z|⟩,
       ⟨c.frame.origin.x + max |c.radius * c.frame.basis.u.x| |c.radius * c.frame.basis.v.x|, c.frame.origin.y + max |c.radius * c.frame.basis.u.y| |c.radius * c.frame.basis.v.y|,
        c.frame.origin.z + max |c.radius * c.frame.basis.u.z| |c.radius * c.frame.basis.v.z|⟩) := by
    unfold Circle3.boundingBox
    simp only [V3.add_x, V3.add_y, V3.add_z, V3.smul_x, V3.smul_y, V3.smul_z, V3.neg_x, V3.neg_y, V3.neg_z, neg_mul]
    simp only [four_min', four_max', mul_comm c.radius]
  rw [hbox]
  have hx : ∀ t, (circlePoint3 c t).x - c.frame.origin.x = c.radius * c.frame.basis.u.x * Real.cos t + c.radius * c.frame.basis.v.x * Real.sin t := by
    intro t; simp only [circlePoint3, V3.add_x, V3.smul_x]; ring
  have hy : ∀ t, (circlePoint3 c t).y - c.frame.origin.y = c.radius * c.frame.basis.u.y * Real.cos t + c.radius * c.frame.basis.v.y * Real.sin t := by
    intro t; simp only [circlePoint3, V3.add_y, V3.smul_y]; ring
  have hz : ∀ t, (circlePoint3 c t).z - c.frame.origin.z = c.radius * c.frame.basis.u.z * Real.cos t + c.radius * c.frame.basis.v.z * Real.sin t := by
    intro t; simp only [circlePoint3, V3.add_z, V3.smul_z]; ring
  have hprod : ∀ a b : ℝ, (∀ t, |c.radius * a * Real.cos t + c.radius * b * Real.sin t| ≤ max |c.radius * a| |c.radius * b|) ↔ a * b = 0 := by
    intro a b
    rw [extent_iff, show c.radius * a * (c.radius * b) = c.radius ^ 2 * (a * b) by ring, mul_eq_zero, or_iff_right (pow_ne_zero 2 hr.ne')]
  constructor
  · rw [← hprod, ← hprod, ← hprod, ← forall_and, ← forall_and]
    apply forall_congr'
    intro t
    rw [← hx, ← hy, ← hz, abs_le, abs_le, abs_le]
    unfold InBox
    dsimp only
    constructor
    · rintro ⟨h1, h2, h3, h4, h5, h6⟩
      exact ⟨⟨by linarith, by linarith⟩, ⟨by linarith, by linarith⟩, by linarith, by linarith⟩
    · rintro ⟨⟨h1, h2⟩, ⟨h3, h4⟩, h5, h6⟩
      exact ⟨by linarith, by linarith, by linarith, by linarith, by linarith, by linarith⟩
  · intro t
    rw [hx, hy, hz]
    dsimp only
    rw [add_sub_cancel_left, add_sub_cancel_left, add_sub_cancel_left]
    exact ⟨extent_sqrt _ _ _, extent_sqrt _ _ _, extent_sqrt _ _ _⟩

/-- C96: false for a circle whose axes are turned in its own plane: a unit circle of the plane `z = 0` with the axes `(3/5, 4/5, 0)`,
`(-4/5, 3/5, 0)` leaves its box. -/
theorem C96_circle3_counterexample : ¬C96_circle3_full_statement := by
  intro hfull
  have := (C96_circle3_box_partial ⟨⟨⟨0, 0, 0⟩, ⟨⟨3 / 5, 4 / 5, 0⟩, ⟨-4 / 5, 3 / 5, 0⟩, ⟨0, 0, 1⟩⟩⟩, 1⟩ (by norm_num)).1.1 fun t =>
    hfull _ t (by norm_num [Orthonormal3, V3.dot]) (by norm_num)
  norm_num at this

end Volmdlr.Conic
