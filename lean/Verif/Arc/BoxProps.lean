import Verif.Arc.Arc3Props
import Verif.Arc.BoxModel
import Verif.BBox.Props

/-!
# Bounding rectangles and boxes of arcs (C98)
-/

namespace Volmdlr.Arc

open Real Volmdlr.Angle Volmdlr.Surface Volmdlr.Solid

/-- Every number of `[0, d]` is within half a step of one of the samples `i d / n`. -/
lemma near_sample {d : ℝ} (hd : 0 < d) {n : ℕ} (hn : 0 < n) {t : ℝ} (h0 : 0 ≤ t) (h1 : t ≤ d) :
    ∃ i : ℕ, i ≤ n ∧ |t - i * (d / n)| ≤ d / (2 * n) := by
  have hn' : (0 : ℝ) < n := by exact_mod_cast hn
  have hx0 : 0 ≤ t * n / d + 1 / 2 := by positivity
  have f1 := Nat.floor_le hx0
  have f2 := Nat.lt_floor_add_one (t * n / d + 1 / 2)
  refine ⟨⌊t * n / d + 1 / 2⌋₊, ?_, ?_⟩
  · have : t * n / d ≤ n := by rw [div_le_iff₀ hd]; nlinarith
    have h2 : (⌊t * n / d + 1 / 2⌋₊ : ℝ) < n + 1 := by linarith
    exact Nat.lt_succ_iff.1 (by exact_mod_cast h2)
  · generalize (⌊t * n / d + 1 / 2⌋₊ : ℝ) = k at f1 f2
    have e : t = (t * n / d) * (d / n) := by field_simp
    generalize t * n / d = y at *
    have e2 : d / (2 * n) = 1 / 2 * (d / n) := by field_simp
    rw [e, ← sub_mul, abs_mul, abs_of_pos (div_pos hd hn'), e2]
    refine mul_le_mul_of_nonneg_right ?_ (div_pos hd hn').le
    rw [abs_le]; constructor <;> linarith

lemma least_spec (m : List ℝ) (h : m ≠ []) : m.tail.foldl min (m.headD 0) ∈ m ∧ ∀ x ∈ m, m.tail.foldl min (m.headD 0) ≤ x := by
  cases m with
  | nil => exact absurd rfl h
  | cons a l =>
    refine ⟨listMin_mem a l, ?_⟩
    intro x hx
    have := listMin_le a l
    rcases List.mem_cons.1 hx with rfl | hx
    · exact this.1
    · exact this.2 x hx

lemma greatest_spec (m : List ℝ) (h : m ≠ []) : m.tail.foldl max (m.headD 0) ∈ m ∧ ∀ x ∈ m, x ≤ m.tail.foldl max (m.headD 0) := by
  cases m with
  | nil => exact absurd rfl h
  | cons a l =>
    refine ⟨listMax_mem a l, ?_⟩
    intro x hx
    have := le_listMax a l
    rcases List.mem_cons.1 hx with rfl | hx
    · exact this.1
    · exact this.2 x hx

lemma coord_le_dist2 (p q : V2 ℝ) : |p.x - q.x| ≤ V2.pointDistance p q ∧ |p.y - q.y| ≤ V2.pointDistance p q := by
  constructor <;> refine abs_le_of_sq_le_sq ?_ (sqrt_nonneg _) <;> unfold V2.pointDistance <;> rw [V2.norm_pow_two] <;>
    simp only [V2.dot, V2.sub_x, V2.sub_y] <;> nlinarith [sq_nonneg (p.x - q.x), sq_nonneg (p.y - q.y)]

lemma coord_le_dist3 (p q : V3 ℝ) : |p.x - q.x| ≤ V3.pointDistance p q ∧ |p.y - q.y| ≤ V3.pointDistance p q ∧ |p.z - q.z| ≤ V3.pointDistance p q := by
  refine ⟨?_, ?_, ?_⟩ <;> refine abs_le_of_sq_le_sq ?_ (sqrt_nonneg _) <;> unfold V3.pointDistance <;> rw [V3.norm_pow_two] <;>
    simp only [V3.dot, V3.sub_x, V3.sub_y, V3.sub_z] <;> nlinarith [sq_nonneg (p.x - q.x), sq_nonneg (p.y - q.y), sq_nonneg (p.z - q.z)]

/-- The arcs of the plane whose bounding rectangle is considered: an arc of a circle in an orthonormal frame, of positive angle, from the point
of its circle at an angle `a`. -/
def Arc2.Proper (arc : Arc2) (a : ℝ) : Prop := arc.circle.Good ∧ arc.start = arc.circle.at a ∧ 0 < arc.angle

/-- The full claim: the bounding rectangle of an arc of the plane contains every point of the arc. -/
def C98_rectangle_full_statement : Prop :=
  ∀ (arc : Arc2) (a : ℝ), arc.Proper a → ∀ s, 0 ≤ s → s ≤ arc.length →
    arc.boundingRectangle.1 ≤ (arc.pointAtAbscissa s).x ∧ (arc.pointAtAbscissa s).x ≤ arc.boundingRectangle.2.1 ∧
    arc.boundingRectangle.2.2.1 ≤ (arc.pointAtAbscissa s).y ∧ (arc.pointAtAbscissa s).y ≤ arc.boundingRectangle.2.2.2

/-- C98: every point of an arc of the plane is in its bounding rectangle enlarged by `radius * angle / 38`, and each side of the rectangle is
reached by a point of the arc.  Missing: the points of the arc between the twenty samples can be out of the rectangle
(`C98_rectangle_counterexample`). -/
theorem C98_rectangle_partial (arc : Arc2) (a : ℝ) (h : arc.Proper a) :
    (∀ s, 0 ≤ s → s ≤ arc.length →
      arc.boundingRectangle.1 - arc.circle.radius * arc.angle / 38 ≤ (arc.pointAtAbscissa s).x ∧
      (arc.pointAtAbscissa s).x ≤ arc.boundingRectangle.2.1 + arc.circle.radius * arc.angle / 38 ∧
      arc.boundingRectangle.2.2.1 - arc.circle.radius * arc.angle / 38 ≤ (arc.pointAtAbscissa s).y ∧
      (arc.pointAtAbscissa s).y ≤ arc.boundingRectangle.2.2.2 + arc.circle.radius * arc.angle / 38) ∧
    (∃ s, 0 ≤ s ∧ s ≤ arc.length ∧ (arc.pointAtAbscissa s).x = arc.boundingRectangle.1) ∧
    (∃ s, 0 ≤ s ∧ s ≤ arc.length ∧ (arc.pointAtAbscissa s).x = arc.boundingRectangle.2.1) ∧
    (∃ s, 0 ≤ s ∧ s ≤ arc.length ∧ (arc.pointAtAbscissa s).y = arc.boundingRectangle.2.2.1) ∧
    (∃ s, 0 ≤ s ∧ s ≤ arc.length ∧ (arc.pointAtAbscissa s).y = arc.boundingRectangle.2.2.2) := by
  obtain ⟨hg, hst, hang⟩ := h
  have hr := hg.pos
  have hlen : arc.length = arc.circle.radius * arc.angle := by unfold Arc2.length; rw [abs_of_pos hang]
  have hlp : 0 < arc.length := by rw [hlen]; positivity
  obtain ⟨l, hl⟩ : ∃ l, l = arc.discretizationPoints 20 := ⟨_, rfl⟩
  have hmem : ∀ p, p ∈ l ↔ ∃ i : ℕ, i ≤ 19 ∧ arc.pointAtAbscissa (i * (arc.length / (19 : ℕ))) = p := by
    intro p
    rw [hl]
    unfold Arc2.discretizationPoints
    simp only [List.mem_map, List.mem_range]
    constructor
    · rintro ⟨i, hi, rfl⟩
      exact ⟨i, by omega, by norm_num⟩
    · rintro ⟨i, hi, rfl⟩
      exact ⟨i, by omega, by norm_num⟩
  have hne : l ≠ [] := by
    intro e
    have := (hmem (arc.pointAtAbscissa (0 * (arc.length / (19 : ℕ))))).2 ⟨0, by norm_num, by norm_num⟩
    rw [e] at this; simp at this
  have hdis : ∀ s s', V2.pointDistance (arc.pointAtAbscissa s) (arc.pointAtAbscissa s') ≤ |s - s'| := by
    intro s s'
    rw [C57_point_at_abscissa hg a arc rfl hst, C57_point_at_abscissa hg a arc rfl hst]
    refine (hg.dist_le _ _).trans (le_of_eq ?_)
    rw [show a + s / arc.circle.radius - (a + s' / arc.circle.radius) = (s - s') / arc.circle.radius by ring, abs_div, abs_of_pos hr]
    field_simp
  have hx := least_spec (l.map V2.x) (by simpa using hne)
  have hx' := greatest_spec (l.map V2.x) (by simpa using hne)
  have hy := least_spec (l.map V2.y) (by simpa using hne)
  have hy' := greatest_spec (l.map V2.y) (by simpa using hne)
  have hrect : arc.boundingRectangle = ((l.map V2.x).tail.foldl min ((l.map V2.x).headD 0), (l.map V2.x).tail.foldl max ((l.map V2.x).headD 0),
      (l.map V2.y).tail.foldl min ((l.map V2.y).headD 0), (l.map V2.y).tail.foldl max ((l.map V2.y).headD 0)) := by rw [hl]; rfl
  rw [hrect]
  dsimp only
  generalize (l.map V2.x).tail.foldl min ((l.map V2.x).headD 0) = x0 at *
  generalize (l.map V2.x).tail.foldl max ((l.map V2.x).headD 0) = x1 at *
  generalize (l.map V2.y).tail.foldl min ((l.map V2.y).headD 0) = y0 at *
  generalize (l.map V2.y).tail.foldl max ((l.map V2.y).headD 0) = y1 at *
  have reach : ∀ p ∈ l, ∃ s, 0 ≤ s ∧ s ≤ arc.length ∧ arc.pointAtAbscissa s = p := by
    intro p hp
    obtain ⟨i, hi, rfl⟩ := (hmem p).1 hp
    refine ⟨_, by positivity, ?_, rfl⟩
    have : (i : ℝ) ≤ 19 := by exact_mod_cast hi
    push_cast
    rw [← mul_div_assoc, div_le_iff₀ (by norm_num)]
    nlinarith
  refine ⟨?_, ?_, ?_, ?_, ?_⟩
  · intro s h0 h1
    obtain ⟨i, hi, hd⟩ := near_sample hlp (n := 19) (by norm_num) h0 h1
    have hp := (hmem _).2 ⟨i, hi, rfl⟩
    generalize hq : arc.pointAtAbscissa (i * (arc.length / (19 : ℕ))) = q at hp
    have hD := (hdis s (i * (arc.length / (19 : ℕ)))).trans hd
    rw [hq] at hD
    have hc := coord_le_dist2 (arc.pointAtAbscissa s) q
    have c1 := abs_le.1 (hc.1.trans hD)
    have c2 := abs_le.1 (hc.2.trans hD)
    rw [hlen] at c1 c2
    push_cast at c1 c2
    have b1 := hx.2 _ (List.mem_map_of_mem hp)
    have b2 := hx'.2 _ (List.mem_map_of_mem hp)
    have b3 := hy.2 _ (List.mem_map_of_mem hp)
    have b4 := hy'.2 _ (List.mem_map_of_mem hp)
    norm_num at c1 c2
    refine ⟨?_, ?_, ?_, ?_⟩ <;> linarith [c1.1, c1.2, c2.1, c2.2]
  · obtain ⟨p, hp, e⟩ := List.mem_map.1 hx.1
    obtain ⟨s, h0, h1, rfl⟩ := reach p hp
    exact ⟨s, h0, h1, e⟩
  · obtain ⟨p, hp, e⟩ := List.mem_map.1 hx'.1
    obtain ⟨s, h0, h1, rfl⟩ := reach p hp
    exact ⟨s, h0, h1, e⟩
  · obtain ⟨p, hp, e⟩ := List.mem_map.1 hy.1
    obtain ⟨s, h0, h1, rfl⟩ := reach p hp
    exact ⟨s, h0, h1, e⟩
  · obtain ⟨p, hp, e⟩ := List.mem_map.1 hy'.1
    obtain ⟨s, h0, h1, rfl⟩ := reach p hp
    exact ⟨s, h0, h1, e⟩

/-- C98: the bounding rectangle of the upper half of the unit circle does not contain its top. -/
theorem C98_rectangle_counterexample : ¬C98_rectangle_full_statement := by
  intro h
  have hp := pi_pos
  obtain ⟨arc, harc⟩ : ∃ arc : Arc2, arc = ⟨unitCircle, unitCircle.at 0, unitCircle.at π, 0, π⟩ := ⟨_, rfl⟩
  have hang : arc.angle = π := by rw [harc]; unfold Arc2.angle; simp
  have hrad : arc.circle.radius = 1 := by rw [harc]; rfl
  have hpr : arc.Proper 0 := by
    refine ⟨?_, by rw [harc], by rw [hang]; exact hp⟩
    rw [harc]; exact ⟨by norm_num [unitCircle, V2.dot], by norm_num [unitCircle, V2.dot], by norm_num [unitCircle, V2.dot], by norm_num [unitCircle]⟩
  have hlen : arc.length = π := by unfold Arc2.length; rw [hang, hrad, abs_of_pos hp, one_mul]
  have hat : ∀ s, (arc.pointAtAbscissa s).y = sin s := by
    intro s
    rw [C57_point_at_abscissa hpr.1 0 arc rfl hpr.2.1, hrad, zero_add, div_one]
    rw [harc]
    simp [Circle2.at, unitCircle]
  obtain ⟨-, -, -, h4⟩ := h arc 0 hpr (π / 2) (by positivity) (by rw [hlen]; linarith)
  rw [hat, sin_pi_div_two] at h4
  have hm := (greatest_spec ((arc.discretizationPoints 20).map V2.y) (by simp [Arc2.discretizationPoints])).1
  change arc.boundingRectangle.2.2.2 ∈ _ at hm
  obtain ⟨q, hq, e⟩ := List.mem_map.1 hm
  unfold Arc2.discretizationPoints at hq
  obtain ⟨i, hi, rfl⟩ := List.mem_map.1 hq
  rw [hat] at e
  have h1 : sin (i * (arc.length / (20 - 1))) = 1 := le_antisymm (sin_le_one _) (by rw [← e] at h4; exact_mod_cast h4)
  rw [hlen, ← cos_pi_div_two_sub] at h1
  have hi' : i ≤ 19 := by have := List.mem_range.1 hi; omega
  have hi2 : (i : ℝ) ≤ 19 := by exact_mod_cast hi'
  have hi0 : (0 : ℝ) ≤ i := Nat.cast_nonneg i
  have h2 := (cos_eq_one_iff_of_lt_of_lt (by nlinarith) (by nlinarith)).1 h1
  have h3 : (19 : ℝ) - 2 * i = 0 := by
    have : π * ((19 : ℝ) - 2 * i) = 0 := by linarith
    exact (mul_eq_zero.1 this).resolve_left hp.ne'
  have h5 : (19 : ℤ) - 2 * i = 0 := by exact_mod_cast h3
  omega

-- the upper half of the unit circle is such an arc
example : (⟨unitCircle, unitCircle.at 0, unitCircle.at π, 0, π⟩ : Arc2).Proper 0 :=
  ⟨⟨by norm_num [unitCircle, V2.dot], by norm_num [unitCircle, V2.dot], by norm_num [unitCircle, V2.dot], by norm_num [unitCircle]⟩, rfl, by
    unfold Arc2.angle; simpa using pi_pos⟩

lemma Circle3.Good.dist_le {c : Circle3} (h : c.Good) (x y : ℝ) : V3.pointDistance (c.at x) (c.at y) ≤ c.radius * |x - y| := by
  have hr := h.pos
  obtain ⟨uu, vv, ww, uv, uw, vw, -⟩ := h.direct
  refine (abs_le_of_sq_le_sq' ?_ (by positivity)).2
  have hsq : V3.pointDistance (c.at x) (c.at y) ^ 2 = c.radius ^ 2 * (2 - 2 * cos (x - y)) := by
    unfold V3.pointDistance
    rw [V3.norm_pow_two, cos_sub]
    have h1 := sin_sq_add_cos_sq x
    have h2 := sin_sq_add_cos_sq y
    simp only [Circle3.at, V3.dot, V3.sub_x, V3.sub_y, V3.sub_z, V3.add_x, V3.add_y, V3.add_z, V3.smul_x, V3.smul_y, V3.smul_z] at *
    linear_combination c.radius ^ 2 * ((cos x - cos y) ^ 2 * uu + (sin x - sin y) ^ 2 * vv + 2 * (cos x - cos y) * (sin x - sin y) * uv + h1 + h2)
  rw [hsq, mul_pow, sq_abs]
  refine mul_le_mul_of_nonneg_left ?_ (by positivity)
  have := one_sub_sq_div_two_le_cos (x := x - y)
  linarith

/-- The arcs of space whose bounding box is considered. -/
def Arc3.Proper (arc : Arc3) (a : ℝ) : Prop := arc.circle.Good ∧ arc.start = arc.circle.at a ∧ 0 < arc.angle

/-- A point in a box enlarged by a margin on every side. -/
def InBox (b : Box3 ℝ) (margin : ℝ) (p : V3 ℝ) : Prop :=
  b.xmin - margin ≤ p.x ∧ p.x ≤ b.xmax + margin ∧ b.ymin - margin ≤ p.y ∧ p.y ≤ b.ymax + margin ∧ b.zmin - margin ≤ p.z ∧ p.z ≤ b.zmax + margin

/-- The full claim: the bounding box of an arc of space contains every point of the arc. -/
def C98_box_full_statement : Prop :=
  ∀ (arc : Arc3) (a : ℝ), arc.Proper a → ∃ b, arc.getBoundingBox = .ok b ∧ ∀ s p, 0 ≤ s → s ≤ arc.length → arc.pointAtAbscissa s = .ok p → InBox b 0 p

lemma fromPoints_spec (l : List (V3 ℝ)) (h : l ≠ []) :
    ∃ b, Box3.fromPoints l = .ok b ∧ (∀ p ∈ l, InBox b 0 p) ∧ (∃ p ∈ l, p.x = b.xmin) ∧ (∃ p ∈ l, p.x = b.xmax) ∧ (∃ p ∈ l, p.y = b.ymin) ∧
      (∃ p ∈ l, p.y = b.ymax) ∧ (∃ p ∈ l, p.z = b.zmin) ∧ (∃ p ∈ l, p.z = b.zmax) := by
  cases l with
  | nil => exact absurd rfl h
  | cons q l =>
    have lo : ∀ f : V3 ℝ → ℝ, ∀ p ∈ q :: l, listMin (f q) (l.map f) ≤ f p := by
      intro f p hp
      rcases List.mem_cons.1 hp with rfl | hp
      · exact (listMin_le _ _).1
      · exact (listMin_le _ _).2 _ (List.mem_map_of_mem hp)
    have hi : ∀ f : V3 ℝ → ℝ, ∀ p ∈ q :: l, f p ≤ listMax (f q) (l.map f) := by
      intro f p hp
      rcases List.mem_cons.1 hp with rfl | hp
      · exact (le_listMax _ _).1
      · exact (le_listMax _ _).2 _ (List.mem_map_of_mem hp)
    have lo' : ∀ f : V3 ℝ → ℝ, ∃ p ∈ q :: l, f p = listMin (f q) (l.map f) := by
      intro f
      have := listMin_mem (f q) (l.map f)
      rw [← List.map_cons, List.mem_map] at this
      exact this
    have hi' : ∀ f : V3 ℝ → ℝ, ∃ p ∈ q :: l, f p = listMax (f q) (l.map f) := by
      intro f
      have := listMax_mem (f q) (l.map f)
      rw [← List.map_cons, List.mem_map] at this
      exact this
    refine ⟨_, rfl, ?_, lo' _, hi' _, lo' _, hi' _, lo' _, hi' _⟩
    intro p hp
    unfold InBox
    simp only [sub_zero, add_zero]
    exact ⟨lo _ p hp, hi _ p hp, lo _ p hp, hi _ p hp, lo _ p hp, hi _ p hp⟩

lemma mapM_total {α β : Type} (f : α → Except PyErr β) (g : α → β) (l : List α) (h : ∀ a ∈ l, f a = .ok (g a)) : l.mapM f = .ok (l.map g) := by
  induction l with
  | nil => rfl
  | cons a l ih =>
    rw [List.mapM_cons, h a (by simp), ih fun b hb => h b (List.mem_cons_of_mem _ hb)]
    rfl

/-- The points of the discretisation of an arc of space. -/
lemma Arc3.Proper.discretization {arc : Arc3} {a : ℝ} (h : arc.Proper a) (n : ℕ) (hn : 0 < n) :
    arc.discretizationPoints (n + 1) = .ok ((List.range (n + 1)).map fun i : ℕ => arc.circle.at (a + i * (arc.angle / n))) := by
  obtain ⟨hg, hst, hang⟩ := h
  have hr := hg.pos
  have hn' : (0 : ℝ) < n := by exact_mod_cast hn
  unfold Arc3.discretizationPoints
  refine mapM_total _ _ _ ?_
  intro i hi
  have hi' : (i : ℝ) ≤ n := by have := List.mem_range.1 hi; exact_mod_cast (by omega : i ≤ n)
  have hlen : arc.length = arc.circle.radius * arc.angle := by unfold Arc3.length; rw [abs_of_pos hang]
  push_cast
  rw [add_sub_cancel_right]
  rw [(C97_point_at_abscissa hg a arc rfl hst _).1]
  · rw [hlen]
    congr 3
    field_simp
  · rw [abs_of_pos hang, ← hlen]
    have : (i : ℝ) * (arc.length / n) ≤ arc.length := by
      rw [← mul_div_assoc, div_le_iff₀ hn']
      have : 0 ≤ arc.length := by rw [hlen]; positivity
      nlinarith
    have h6 : (0 : ℝ) ≤ 1 / 10 ^ 6 := by norm_num
    linarith

lemma numberPoints_spec {angle : ℝ} (h : 0 < angle) : ∃ n : ℕ, 0 < n ∧ numberPoints angle 5 = n + 1 ∧ angle / n ≤ 1 / 5 ∧ ((n : ℝ) < angle * 5 + 1) := by
  have hc : 0 < ⌈angle * 5⌉₊ := Nat.ceil_pos.2 (by positivity)
  refine ⟨⌈angle * 5⌉₊, hc, ?_, ?_, ?_⟩
  · unfold numberPoints; omega
  · have := Nat.le_ceil (angle * 5)
    rw [div_le_iff₀ (by exact_mod_cast hc)]
    linarith
  · exact Nat.ceil_lt_add_one (by positivity)

/-- C98: the bounding box of an arc of space always exists; every point of the arc is in the box enlarged by a tenth of the radius, and each face of
the box is reached by a point of the arc.  Missing: the points between the samples can be out of the box
(`C98_box_counterexample`). -/
theorem C98_box_partial (arc : Arc3) (a : ℝ) (h : arc.Proper a) :
    ∃ b, arc.getBoundingBox = .ok b ∧
      (∀ s p, 0 ≤ s → s ≤ arc.length → arc.pointAtAbscissa s = .ok p → InBox b (arc.circle.radius / 10) p) ∧
      (∃ s p, 0 ≤ s ∧ s ≤ arc.length ∧ arc.pointAtAbscissa s = .ok p ∧ p.x = b.xmin) ∧
      (∃ s p, 0 ≤ s ∧ s ≤ arc.length ∧ arc.pointAtAbscissa s = .ok p ∧ p.x = b.xmax) ∧
      (∃ s p, 0 ≤ s ∧ s ≤ arc.length ∧ arc.pointAtAbscissa s = .ok p ∧ p.y = b.ymin) ∧
      (∃ s p, 0 ≤ s ∧ s ≤ arc.length ∧ arc.pointAtAbscissa s = .ok p ∧ p.y = b.ymax) ∧
      (∃ s p, 0 ≤ s ∧ s ≤ arc.length ∧ arc.pointAtAbscissa s = .ok p ∧ p.z = b.zmin) ∧
      (∃ s p, 0 ≤ s ∧ s ≤ arc.length ∧ arc.pointAtAbscissa s = .ok p ∧ p.z = b.zmax) := by
  obtain ⟨n, hn, hnp, hstep, -⟩ := numberPoints_spec h.2.2
  have hn' : (0 : ℝ) < n := by exact_mod_cast hn
  have hr := h.1.pos
  have hang := h.2.2
  have hlen : arc.length = arc.circle.radius * arc.angle := by unfold Arc3.length; rw [abs_of_pos hang]
  unfold Arc3.getBoundingBox
  rw [hnp, h.discretization n hn]
  obtain ⟨b, hb, hin, r1, r2, r3, r4, r5, r6⟩ := fromPoints_spec ((List.range (n + 1)).map fun i : ℕ => arc.circle.at (a + i * (arc.angle / n))) (by simp)
  have hpt : ∀ t, 0 ≤ t → t ≤ arc.angle → arc.pointAtAbscissa (arc.circle.radius * t) = .ok (arc.circle.at (a + t)) := by
    intro t h0 h1
    rw [(C97_point_at_abscissa h.1 a arc rfl h.2.1 _).1, mul_div_cancel_left₀ _ hr.ne']
    rw [abs_of_pos hang]
    have h6 : (0 : ℝ) ≤ 1 / 10 ^ 6 := by norm_num
    nlinarith
  have reach : ∀ p ∈ ((List.range (n + 1)).map fun i : ℕ => arc.circle.at (a + i * (arc.angle / n))),
      ∃ s, 0 ≤ s ∧ s ≤ arc.length ∧ arc.pointAtAbscissa s = .ok p := by
    intro p hp
    obtain ⟨i, hi, rfl⟩ := List.mem_map.1 hp
    have hi' : (i : ℝ) ≤ n := by have := List.mem_range.1 hi; exact_mod_cast (by omega : i ≤ n)
    have h1 : (i : ℝ) * (arc.angle / n) ≤ arc.angle := by
      rw [← mul_div_assoc, div_le_iff₀ hn']; nlinarith
    exact ⟨_, by positivity, by rw [hlen]; exact mul_le_mul_of_nonneg_left h1 hr.le, hpt _ (by positivity) h1⟩
  refine ⟨b, hb, ?_, ?_, ?_, ?_, ?_, ?_, ?_⟩
  · intro s p h0 h1 hp
    have hs : s = arc.circle.radius * (s / arc.circle.radius) := by field_simp
    have t0 : 0 ≤ s / arc.circle.radius := by positivity
    have t1 : s / arc.circle.radius ≤ arc.angle := by rw [div_le_iff₀ hr]; linarith
    rw [hs, hpt _ t0 t1] at hp
    obtain rfl := Except.ok.inj hp
    obtain ⟨i, hi, hd⟩ := near_sample hang hn t0 t1
    have hmem := hin (arc.circle.at (a + i * (arc.angle / n))) (List.mem_map.2 ⟨i, List.mem_range.2 (by omega), rfl⟩)
    have hD := h.1.dist_le (a + s / arc.circle.radius) (a + i * (arc.angle / n))
    rw [add_sub_add_left_eq_sub] at hD
    have hd2 : arc.circle.radius * |s / arc.circle.radius - i * (arc.angle / n)| ≤ arc.circle.radius / 10 := by
      have e : arc.angle / (2 * n) = arc.angle / n / 2 := by field_simp
      rw [e] at hd
      nlinarith
    have hc := coord_le_dist3 (arc.circle.at (a + s / arc.circle.radius)) (arc.circle.at (a + i * (arc.angle / n)))
    have hD' := hD.trans hd2
    have c1 := abs_le.1 (hc.1.trans hD')
    have c2 := abs_le.1 (hc.2.1.trans hD')
    have c3 := abs_le.1 (hc.2.2.trans hD')
    obtain ⟨b1, b2, b3, b4, b5, b6⟩ := hmem
    refine ⟨?_, ?_, ?_, ?_, ?_, ?_⟩ <;> linarith [c1.1, c1.2, c2.1, c2.2, c3.1, c3.2]
  · obtain ⟨p, hp, e⟩ := r1
    obtain ⟨s, h0, h1, h2⟩ := reach p hp
    exact ⟨s, p, h0, h1, h2, e⟩
  · obtain ⟨p, hp, e⟩ := r2
    obtain ⟨s, h0, h1, h2⟩ := reach p hp
    exact ⟨s, p, h0, h1, h2, e⟩
  · obtain ⟨p, hp, e⟩ := r3
    obtain ⟨s, h0, h1, h2⟩ := reach p hp
    exact ⟨s, p, h0, h1, h2, e⟩
  · obtain ⟨p, hp, e⟩ := r4
    obtain ⟨s, h0, h1, h2⟩ := reach p hp
    exact ⟨s, p, h0, h1, h2, e⟩
  · obtain ⟨p, hp, e⟩ := r5
    obtain ⟨s, h0, h1, h2⟩ := reach p hp
    exact ⟨s, p, h0, h1, h2, e⟩
  · obtain ⟨p, hp, e⟩ := r6
    obtain ⟨s, h0, h1, h2⟩ := reach p hp
    exact ⟨s, p, h0, h1, h2, e⟩

/-- The unit circle of the plane `z = 0`. -/
noncomputable def unitCircle3 : Circle3 := ⟨⟨⟨0, 0, 0⟩, ⟨⟨1, 0, 0⟩, ⟨0, 1, 0⟩, ⟨0, 0, 1⟩⟩⟩, 1⟩

lemma unitCircle3_good : unitCircle3.Good := ⟨by norm_num [DirectOrthonormal, unitCircle3, V3.dot, V3.cross], by norm_num [unitCircle3]⟩

/-- The arc of the unit circle from 30 to 150 degrees. -/
noncomputable def topArc : Arc3 := ⟨unitCircle3, unitCircle3.at (π / 6), unitCircle3.at (5 * π / 6), π / 6, 5 * π / 6⟩

lemma topArc_proper : topArc.Proper (π / 6) := ⟨unitCircle3_good, rfl, by have := pi_pos; unfold Arc3.angle topArc; dsimp only; linarith⟩

/-- C98: the bounding box of the arc from 30 to 150 degrees of the unit circle does not contain its top. -/
theorem C98_box_counterexample : ¬C98_box_full_statement := by
  intro h
  have hp := pi_pos
  have hang : topArc.angle = 2 * π / 3 := by unfold Arc3.angle topArc; dsimp only; ring
  have hrad : topArc.circle.radius = 1 := rfl
  have hlen : topArc.length = 2 * π / 3 := by unfold Arc3.length; rw [hang, hrad, abs_of_pos (by positivity), one_mul]
  obtain ⟨b, hb, hin⟩ := h topArc (π / 6) topArc_proper
  have hnum : numberPoints topArc.angle 5 = 11 + 1 := by
    have : ⌈topArc.angle * 5⌉₊ = 11 := by
      rw [hang, Nat.ceil_eq_iff (by norm_num)]
      have h1 := pi_gt_three
      have h2 := pi_lt_d2
      constructor <;> norm_num <;> linarith
    unfold numberPoints
    rw [this]; rfl
  unfold Arc3.getBoundingBox at hb
  rw [hnum, topArc_proper.discretization 11 (by norm_num)] at hb
  obtain ⟨b', hb', -, -, -, -, ⟨q, hq, e⟩, -, -⟩ :=
    fromPoints_spec ((List.range (11 + 1)).map fun i : ℕ => topArc.circle.at (π / 6 + i * (topArc.angle / (11 : ℕ)))) (by simp)
  have : b = b' := by
    have := hb.symm.trans hb'
    exact Except.ok.inj this
  subst this
  have htop := hin (π / 3) (topArc.circle.at (π / 2)) (by positivity) (by rw [hlen]; linarith) (by
    rw [(C97_point_at_abscissa unitCircle3_good (π / 6) topArc rfl rfl _).1]
    · congr 2
      change π / 6 + π / 3 / 1 = _
      ring
    · change π / 3 ≤ 1 * |topArc.angle| + _
      rw [hang, abs_of_pos (by positivity)]
      norm_num
      linarith)
  have hy : ∀ t, (topArc.circle.at t).y = sin t := by
    intro t
    simp [topArc, Circle3.at, unitCircle3]
  have h4 := htop.2.2.2.1
  rw [hy, sin_pi_div_two, ← e] at h4
  obtain ⟨i, hi, rfl⟩ := List.mem_map.1 hq
  rw [hy] at h4
  have h1 : sin (π / 6 + i * (topArc.angle / (11 : ℕ))) = 1 := le_antisymm (sin_le_one _) (by linarith)
  rw [hang, ← cos_pi_div_two_sub] at h1
  have hi' : i ≤ 11 := by have := List.mem_range.1 hi; omega
  have hi2 : (i : ℝ) ≤ 11 := by exact_mod_cast hi'
  have hi0 : (0 : ℝ) ≤ i := Nat.cast_nonneg i
  push_cast at h1
  have h2 := (cos_eq_one_iff_of_lt_of_lt (by nlinarith) (by nlinarith)).1 h1
  have h3 : (11 : ℝ) - 2 * i = 0 := by
    have : π * ((11 : ℝ) - 2 * i) = 0 := by linarith
    exact (mul_eq_zero.1 this).resolve_left hp.ne'
  have h5 : (11 : ℤ) - 2 * i = 0 := by exact_mod_cast h3
  omega

-- the arc from 30 to 150 degrees is such an arc
example : topArc.Proper (π / 6) := topArc_proper

end Volmdlr.Arc
