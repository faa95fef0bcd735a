import Verif.Intersect.PlaneProps

/-!
# C73: lines
-/

namespace Volmdlr.Intersect

open Volmdlr.Angle Volmdlr.Arc

lemma V3.abs_le_of_sq {a b : ℝ} (hb : 0 ≤ b) (h : a ^ 2 ≤ b ^ 2) : a ≤ b := abs_le_of_sq_le_sq' h hb |>.2

/-- The number `d` is the distance from `p` to the line through `a`, `b`: it is attained and it is a minimum (specification). -/
def IsDistanceToLine (a b p : V3 ℝ) (d : ℝ) : Prop :=
  (∃ q, OnLine3 a b q ∧ V3.pointDistance p q = d) ∧ ∀ q, OnLine3 a b q → d ≤ V3.pointDistance p q

/-- Same, in the plane. -/
def IsDistanceToLine2 (a b p : V2 ℝ) (d : ℝ) : Prop :=
  (∃ q, OnLine2 a b q ∧ V2.pointDistance p q = d) ∧ ∀ q, OnLine2 a b q → d ≤ V2.pointDistance p q

/-- The number `d` is the distance between two lines: it is attained and it is a minimum (specification). -/
def IsLineDistance (a b a' b' : V3 ℝ) (d : ℝ) : Prop :=
  (∃ p q, OnLine3 a b p ∧ OnLine3 a' b' q ∧ V3.pointDistance p q = d) ∧ ∀ p q, OnLine3 a b p → OnLine3 a' b' q → d ≤ V3.pointDistance p q

lemma sq_pointDistance3 (p q : V3 ℝ) : V3.pointDistance p q ^ 2 = (p.x - q.x) ^ 2 + (p.y - q.y) ^ 2 + (p.z - q.z) ^ 2 := by
  unfold V3.pointDistance
  rw [V3.norm_pow_two]
  simp only [V3.dot, V3.sub_x, V3.sub_y, V3.sub_z]
  ring

lemma sq_pointDistance2 (p q : V2 ℝ) : V2.pointDistance p q ^ 2 = (p.x - q.x) ^ 2 + (p.y - q.y) ^ 2 := by
  unfold V2.pointDistance
  rw [V2.norm_pow_two]
  simp only [V2.dot, V2.sub_x, V2.sub_y]
  ring

lemma cauchy3 (a b c x y z : ℝ) : (a * x + b * y + c * z) ^ 2 ≤ (a ^ 2 + b ^ 2 + c ^ 2) * (x * x + y * y + z * z) := by
  nlinarith [sq_nonneg (a * y - b * x), sq_nonneg (b * z - c * y), sq_nonneg (c * x - a * z)]

lemma pointDistance3_nonneg (p q : V3 ℝ) : 0 ≤ V3.pointDistance p q := V3.norm_nonneg _

lemma Line3.dir_pos {l : Line3} (h : l.point1 ≠ l.point2) : 0 < V3.norm l.dir :=
  lt_of_le_of_ne (V3.norm_nonneg _) fun e => h (by
    have := (V3.norm_eq_zero_iff _).mp e.symm
    exact (V3.sub_eq_zero_iff _ _).mp this)

/-- C73: `point_projection`, `closest_point_on_line`, `abscissa` and `point_at_abscissa` agree: the projection is the point of the line nearest to
the given point, its abscissa is the one `abscissa` gives and `point_at_abscissa` takes it back to the projection. -/
theorem C73_projection (l : Line3) (h : l.point1 ≠ l.point2) (p : V3 ℝ) :
    ∃ q s, l.pointProjection p = some (q, s) ∧ l.closestPoint p = some q ∧ l.abscissa p = some s ∧ l.abscissa q = some s ∧ l.pointAtAbscissa s = some q ∧
      OnLine3 l.point1 l.point2 q ∧ ∀ r, OnLine3 l.point1 l.point2 r → V3.pointDistance p q ≤ V3.pointDistance p r := by
  have hN := Line3.dir_pos h
  obtain ⟨N, hNe⟩ : ∃ N, N = V3.norm l.dir := ⟨_, rfl⟩
  have hsq : V3.dot l.dir l.dir = N ^ 2 := by rw [hNe, V3.norm_pow_two]
  rw [← hNe] at hN
  obtain ⟨t, ht⟩ : ∃ t, t = V3.dot (p - l.point1) l.dir / N ^ 2 := ⟨_, rfl⟩
  have ht' : t * N ^ 2 = V3.dot (p - l.point1) l.dir := by rw [ht]; field_simp
  refine ⟨l.point1 + V3.smul t l.dir, t * N, ?_, ?_, ?_, ?_, ?_, ?_, ?_⟩
  · unfold Line3.pointProjection pointProjection3
    change (if V3.norm l.dir ^ 2 = 0 then none else some (l.point1 + V3.smul (V3.dot (p - l.point1) l.dir / V3.norm l.dir ^ 2) l.dir,
      V3.dot (p - l.point1) l.dir / V3.norm l.dir ^ 2 * V3.norm l.dir)) = _
    rw [← hNe, if_neg (by positivity), ← ht]
  · unfold Line3.closestPoint
    rw [hsq, if_neg (by positivity), ← ht]
  · unfold Line3.abscissa
    rw [← hNe, if_neg hN.ne', ht]
    congr 1
    field_simp
  · unfold Line3.abscissa
    rw [← hNe, if_neg hN.ne']
    congr 1
    rw [div_eq_iff hN.ne']
    simp only [V3.dot, V3.sub_x, V3.sub_y, V3.sub_z, V3.add_x, V3.add_y, V3.add_z, V3.smul_x, V3.smul_y, V3.smul_z] at hsq ⊢
    linear_combination t * hsq
  · unfold Line3.pointAtAbscissa V3.unitVector
    rw [← hNe, if_neg hN.ne', Option.map_some]
    congr 1
    ext <;> simp <;> field_simp
  · exact ⟨t, by simp [Line3.dir]; ring, by simp [Line3.dir]; ring, by simp [Line3.dir]; ring⟩
  · rintro r ⟨s, hx, hy, hz⟩
    apply V3.abs_le_of_sq (pointDistance3_nonneg _ _)
    rw [sq_pointDistance3, sq_pointDistance3]
    have hx' : r.x = l.point1.x + s * l.dir.x := hx
    have hy' : r.y = l.point1.y + s * l.dir.y := hy
    have hz' : r.z = l.point1.z + s * l.dir.z := hz
    rw [hx', hy', hz']
    simp only [V3.dot, V3.sub_x, V3.sub_y, V3.sub_z, V3.add_x, V3.add_y, V3.add_z, V3.smul_x, V3.smul_y, V3.smul_z] at hsq ht' ⊢
    have := mul_nonneg (sq_nonneg (s - t)) (sq_nonneg N)
    have e : (s - t) ^ 2 * (l.dir.x * l.dir.x + l.dir.y * l.dir.y + l.dir.z * l.dir.z) = (s - t) ^ 2 * N ^ 2 := by rw [hsq]
    have e2 : 2 * (s - t) * t * (l.dir.x * l.dir.x + l.dir.y * l.dir.y + l.dir.z * l.dir.z) = 2 * (s - t) * (t * N ^ 2) := by rw [hsq]; ring
    rw [ht'] at e2
    linarith

example : (⟨⟨0, 0, 0⟩, ⟨0, 2, 0⟩⟩ : Line3).point1 ≠ (⟨⟨0, 0, 0⟩, ⟨0, 2, 0⟩⟩ : Line3).point2 := by
  intro h; have := congrArg V3.y h; norm_num at this

/-- C73: `abscissa` gives back the number given to `point_at_abscissa`; the point is at that distance from the first point of the line. -/
theorem C73_abscissa_inverse (l : Line3) (h : l.point1 ≠ l.point2) (s : ℝ) :
    ∃ q, l.pointAtAbscissa s = some q ∧ l.abscissa q = some s ∧ OnLine3 l.point1 l.point2 q ∧ V3.pointDistance q l.point1 = |s| := by
  have hN := Line3.dir_pos h
  obtain ⟨N, hNe⟩ : ∃ N, N = V3.norm l.dir := ⟨_, rfl⟩
  have hsq : V3.dot l.dir l.dir = N ^ 2 := by rw [hNe, V3.norm_pow_two]
  rw [← hNe] at hN
  refine ⟨_, by unfold Line3.pointAtAbscissa V3.unitVector; rw [← hNe, if_neg hN.ne', Option.map_some], ?_, ?_, ?_⟩
  · unfold Line3.abscissa
    rw [← hNe, if_neg hN.ne']
    congr 1
    rw [div_eq_iff hN.ne']
    simp only [V3.dot, V3.sub_x, V3.sub_y, V3.sub_z, V3.add_x, V3.add_y, V3.add_z, V3.smul_x, V3.smul_y, V3.smul_z] at hsq ⊢
    field_simp
    linear_combination s * hsq
  · refine ⟨s / N, ?_, ?_, ?_⟩ <;> simp [Line3.dir] <;> ring
  · rw [← abs_of_nonneg (pointDistance3_nonneg _ _), ← sq_eq_sq_iff_abs_eq_abs, sq_pointDistance3]
    simp only [V3.dot, V3.add_x, V3.add_y, V3.add_z, V3.smul_x, V3.smul_y, V3.smul_z] at hsq ⊢
    field_simp
    linear_combination s ^ 2 * hsq

/-- C73: `Line3D.point_distance` is the distance from the point to the line. -/
theorem C73_point_distance3 (l : Line3) (h : l.point1 ≠ l.point2) (p : V3 ℝ) :
    ∃ d, l.pointDistance p = some d ∧ IsDistanceToLine l.point1 l.point2 p d := by
  obtain ⟨q, s, h1, h2, -, -, -, h3, h4⟩ := C73_projection l h p
  have hN := Line3.dir_pos h
  obtain ⟨N, hNe⟩ : ∃ N, N = V3.norm l.dir := ⟨_, rfl⟩
  have hsq : V3.dot l.dir l.dir = N ^ 2 := by rw [hNe, V3.norm_pow_two]
  rw [← hNe] at hN
  have hd : V3.norm (V3.cross (p - l.point1) l.dir) / N = V3.pointDistance p q := by
    have hnn : 0 ≤ V3.norm (V3.cross (p - l.point1) l.dir) / N := div_nonneg (V3.norm_nonneg _) hN.le
    rw [← abs_of_nonneg hnn, ← abs_of_nonneg (pointDistance3_nonneg p q), ← sq_eq_sq_iff_abs_eq_abs, sq_pointDistance3, div_pow, V3.norm_pow_two]
    unfold Line3.closestPoint at h2
    rw [hsq, if_neg (by positivity)] at h2
    have h2' := Option.some.inj h2
    rw [← h2', div_eq_iff (by positivity)]
    obtain ⟨k, hk⟩ : ∃ k, k = V3.dot (p - l.point1) l.dir := ⟨_, rfl⟩
    rw [← hk]
    simp only [V3.dot, V3.cross, V3.sub_x, V3.sub_y, V3.sub_z, V3.add_x, V3.add_y, V3.add_z, V3.smul_x, V3.smul_y, V3.smul_z] at hsq hk ⊢
    field_simp
    rw [← hsq, hk]
    ring
  refine ⟨V3.pointDistance p q, ?_, ⟨q, h3, rfl⟩, h4⟩
  unfold Line3.pointDistance
  rw [← hNe, if_neg hN.ne', hd]

/-- C73: `Line2D.point_distance` is the distance from the point to the line. -/
theorem C73_point_distance2 (l : Line2) (h : l.point1 ≠ l.point2) (p : V2 ℝ) :
    ∃ d, l.pointDistance p = some d ∧ IsDistanceToLine2 l.point1 l.point2 p d := by
  have hN : 0 < V2.norm (V2.normalVector l.dir) := by
    refine lt_of_le_of_ne (V2.norm_nonneg _) fun e => h ?_
    have := (V2.norm_eq_zero_iff _).mp e.symm
    have hx := congrArg V2.x this
    have hy := congrArg V2.y this
    simp [V2.normalVector, Line2.dir] at hx hy
    ext <;> linarith
  obtain ⟨N, hNe⟩ : ∃ N, N = V2.norm (V2.normalVector l.dir) := ⟨_, rfl⟩
  have hsq : l.dir.x ^ 2 + l.dir.y ^ 2 = N ^ 2 := by
    rw [hNe, V2.norm_pow_two]; simp only [V2.dot, V2.normalVector]; ring
  rw [← hNe] at hN
  obtain ⟨k, hk⟩ : ∃ k, k = V2.dot (V2.normalVector l.dir) (l.point1 - p) := ⟨_, rfl⟩
  have hval : l.pointDistance p = some (|k| / N) := by
    unfold Line2.pointDistance
    dsimp only
    rw [← hNe, if_neg hN.ne', ← hk]
  refine ⟨_, hval, ⟨p + V2.smul (k / N ^ 2) (V2.normalVector l.dir), ?_, ?_⟩, ?_⟩
  · refine ⟨V2.dot (p - l.point1) l.dir / N ^ 2, ?_, ?_⟩
    · change p.x + (-l.dir.y) * (k / N ^ 2) = l.point1.x + V2.dot (p - l.point1) l.dir / N ^ 2 * l.dir.x
      field_simp
      rw [hk, ← hsq]
      simp only [V2.dot, V2.normalVector, V2.sub_x, V2.sub_y]
      ring
    · change p.y + l.dir.x * (k / N ^ 2) = l.point1.y + V2.dot (p - l.point1) l.dir / N ^ 2 * l.dir.y
      field_simp
      rw [hk, ← hsq]
      simp only [V2.dot, V2.normalVector, V2.sub_x, V2.sub_y]
      ring
  · have h1 : 0 ≤ |k| / N := by positivity
    rw [← abs_of_nonneg (pointDistance_nonneg p _), ← abs_of_nonneg h1, ← sq_eq_sq_iff_abs_eq_abs, sq_pointDistance2, div_pow, sq_abs]
    simp only [V2.normalVector, V2.add_x, V2.add_y, V2.smul_x, V2.smul_y]
    have : (k / N ^ 2) ^ 2 * (l.dir.x ^ 2 + l.dir.y ^ 2) = k ^ 2 / N ^ 2 := by rw [hsq]; field_simp
    linear_combination this
  · rintro q ⟨t, hx, hy⟩
    have hx' : q.x = l.point1.x + t * l.dir.x := hx
    have hy' : q.y = l.point1.y + t * l.dir.y := hy
    rw [div_le_iff₀ hN]
    apply V3.abs_le_of_sq (mul_nonneg (pointDistance_nonneg _ _) hN.le)
    rw [sq_abs, mul_pow, sq_pointDistance2, ← hsq, hk]
    simp only [V2.dot, V2.normalVector, V2.sub_x, V2.sub_y]
    have e : -l.dir.y * (l.point1.x - p.x) + l.dir.x * (l.point1.y - p.y) = -l.dir.y * (q.x - p.x) + l.dir.x * (q.y - p.y) := by rw [hx', hy']; ring
    rw [e]
    nlinarith [sq_nonneg (l.dir.x * (q.x - p.x) + l.dir.y * (q.y - p.y))]

example : (⟨⟨0, 0⟩, ⟨0, 2⟩⟩ : Line2).point1 ≠ (⟨⟨0, 0⟩, ⟨0, 2⟩⟩ : Line2).point2 := by
  intro h; have := congrArg V2.y h; norm_num at this

/-! ## Distance between two lines -/

/-- The full statement: `Line3D.line_distance` is the distance between the two lines. -/
def C73_line_distance_full_statement : Prop :=
  ∀ l m : Line3, l.point1 ≠ l.point2 → m.point1 ≠ m.point2 → ∃ d, l.lineDistance m = some d ∧ IsLineDistance l.point1 l.point2 m.point1 m.point2 d

/-- C73: `Line3D.line_distance` is right when `is_colinear_to` tells parallel directions from the others exactly. -/
theorem C73_line_distance_partial (l m : Line3) (hl : l.point1 ≠ l.point2) (hm : m.point1 ≠ m.point2)
    (hc : isColinear l.dir m.dir = true ↔ V3.cross l.dir m.dir = ⟨0, 0, 0⟩) :
    ∃ d, l.lineDistance m = some d ∧ IsLineDistance l.point1 l.point2 m.point1 m.point2 d := by
  have hN := Line3.dir_pos hl
  have hM := Line3.dir_pos hm
  by_cases h : isColinear l.dir m.dir = true
  · -- parallel lines
    have hx := hc.mp h
    obtain ⟨d, hd, ⟨q, hq, hqd⟩, hmin⟩ := C73_point_distance3 l hl m.point1
    have hval : l.lineDistance m = some d := by
      unfold Line3.lineDistance
      rw [if_pos h, ← hd]
      unfold Line3.pointDistance
      have : V3.norm (V3.cross l.dir (m.point1 - l.point1)) = V3.norm (V3.cross (m.point1 - l.point1) l.dir) := by
        unfold V3.norm V3.cross
        congr 1
        dsimp only
        ring
      rw [this]
    refine ⟨d, hval, ⟨q, m.point1, hq, ⟨0, by ring, by ring, by ring⟩, ?_⟩, ?_⟩
    · rw [← hqd]
      rw [← abs_of_nonneg (pointDistance3_nonneg q _), ← abs_of_nonneg (pointDistance3_nonneg m.point1 _), ← sq_eq_sq_iff_abs_eq_abs, sq_pointDistance3, sq_pointDistance3]
      ring
    · -- translate a point of the second line along the common direction
      rintro p r ⟨s, h1, h2, h3⟩ ⟨t, h4, h5, h6⟩
      have c1 := congrArg V3.x hx
      have c2 := congrArg V3.y hx
      have c3 := congrArg V3.z hx
      simp only [V3.cross] at c1 c2 c3
      obtain ⟨k, k1, k2, k3⟩ : ∃ k, m.dir.x = k * l.dir.x ∧ m.dir.y = k * l.dir.y ∧ m.dir.z = k * l.dir.z := by
        have hne : V3.dot l.dir l.dir ≠ 0 := by rw [← V3.norm_pow_two]; positivity
        refine ⟨V3.dot m.dir l.dir / V3.dot l.dir l.dir, ?_, ?_, ?_⟩
        all_goals
          rw [div_mul_eq_mul_div, eq_div_iff hne]
          simp only [V3.dot]
        · linear_combination l.dir.z * c2 - l.dir.y * c3
        · linear_combination l.dir.x * c3 - l.dir.z * c1
        · linear_combination l.dir.y * c1 - l.dir.x * c2
      have := hmin ⟨p.x - t * m.dir.x, p.y - t * m.dir.y, p.z - t * m.dir.z⟩ ⟨s - t * k, by
          dsimp only; rw [h1, k1]; simp only [Line3.dir, V3.sub_x]; ring, by
          dsimp only; rw [h2, k2]; simp only [Line3.dir, V3.sub_y]; ring, by
          dsimp only; rw [h3, k3]; simp only [Line3.dir, V3.sub_z]; ring⟩
      refine this.trans (le_of_eq ?_)
      rw [← abs_of_nonneg (pointDistance3_nonneg p _), ← abs_of_nonneg (pointDistance3_nonneg m.point1 _), ← sq_eq_sq_iff_abs_eq_abs, sq_pointDistance3, sq_pointDistance3]
      rw [h4, h5, h6]
      simp only [Line3.dir, V3.sub_x, V3.sub_y, V3.sub_z]
      ring
  · have hx : V3.cross l.dir m.dir ≠ ⟨0, 0, 0⟩ := fun e => h (hc.mpr e)
    have hn0 : V3.norm (V3.cross l.dir m.dir) ≠ 0 := by rwa [Ne, V3.norm_eq_zero_iff]
    obtain ⟨n, hn⟩ : ∃ n, n = V3.cross l.dir m.dir := ⟨_, rfl⟩
    have hpos : 0 < V3.norm n := by rw [hn]; exact lt_of_le_of_ne (V3.norm_nonneg _) (Ne.symm hn0)
    obtain ⟨N, hNe⟩ : ∃ N, N = V3.norm n := ⟨_, rfl⟩
    have hsq : n.x * n.x + n.y * n.y + n.z * n.z = N ^ 2 := by rw [hNe, V3.norm_pow_two]; rfl
    rw [← hNe] at hpos
    have hn1 : n.x = l.dir.y * m.dir.z - l.dir.z * m.dir.y := by rw [hn]; rfl
    have hn2 : n.y = l.dir.z * m.dir.x - l.dir.x * m.dir.z := by rw [hn]; rfl
    have hn3 : n.z = l.dir.x * m.dir.y - l.dir.y * m.dir.x := by rw [hn]; rfl
    obtain ⟨e, he⟩ : ∃ e, e = m.point1 - l.point1 := ⟨_, rfl⟩
    have hval : l.lineDistance m = some (|V3.dot e n| / N) := by
      unfold Line3.lineDistance
      rw [if_neg h, if_neg hn0, ← hn, ← he, ← hNe]
    have e1 : e.x = m.point1.x - l.point1.x := by rw [he]; rfl
    have e2 : e.y = m.point1.y - l.point1.y := by rw [he]; rfl
    have e3 : e.z = m.point1.z - l.point1.z := by rw [he]; rfl
    -- parameters of the common perpendicular
    obtain ⟨a, ha⟩ : ∃ a, a = V3.dot (V3.cross e m.dir) n / N ^ 2 := ⟨_, rfl⟩
    obtain ⟨b, hb⟩ : ∃ b, b = V3.dot (V3.cross e l.dir) n / N ^ 2 := ⟨_, rfl⟩
    have ha' : a * N ^ 2 = V3.dot (V3.cross e m.dir) n := by rw [ha]; field_simp
    have hb' : b * N ^ 2 = V3.dot (V3.cross e l.dir) n := by rw [hb]; field_simp
    refine ⟨_, hval, ⟨⟨l.point1.x + a * l.dir.x, l.point1.y + a * l.dir.y, l.point1.z + a * l.dir.z⟩,
      ⟨m.point1.x + b * m.dir.x, m.point1.y + b * m.dir.y, m.point1.z + b * m.dir.z⟩, ⟨a, rfl, rfl, rfl⟩, ⟨b, rfl, rfl, rfl⟩, ?_⟩, ?_⟩
    · have h1 : 0 ≤ |V3.dot e n| / N := by positivity
      rw [← abs_of_nonneg (pointDistance3_nonneg _ _), ← abs_of_nonneg h1, ← sq_eq_sq_iff_abs_eq_abs, sq_pointDistance3, div_pow, sq_abs]
      have key : ∀ (ex ax bx nx : ℝ), ax * N ^ 2 - bx * N ^ 2 - ex * N ^ 2 = -(V3.dot e n * nx) → ax - (ex + bx) = -(V3.dot e n * nx) / N ^ 2 := by
        intro ex ax bx nx hh
        rw [eq_div_iff (by positivity)]
        linear_combination hh
      have x1 := key e.x (a * l.dir.x) (b * m.dir.x) n.x (by
        have p1 : a * l.dir.x * N ^ 2 = V3.dot (V3.cross e m.dir) n * l.dir.x := by rw [← ha']; ring
        have p2 : b * m.dir.x * N ^ 2 = V3.dot (V3.cross e l.dir) n * m.dir.x := by rw [← hb']; ring
        rw [p1, p2, ← hsq, hn1, hn2, hn3]
        simp only [V3.dot, V3.cross, hn1, hn2, hn3]
        ring)
      have x2 := key e.y (a * l.dir.y) (b * m.dir.y) n.y (by
        have p1 : a * l.dir.y * N ^ 2 = V3.dot (V3.cross e m.dir) n * l.dir.y := by rw [← ha']; ring
        have p2 : b * m.dir.y * N ^ 2 = V3.dot (V3.cross e l.dir) n * m.dir.y := by rw [← hb']; ring
        rw [p1, p2, ← hsq, hn1, hn2, hn3]
        simp only [V3.dot, V3.cross, hn1, hn2, hn3]
        ring)
      have x3 := key e.z (a * l.dir.z) (b * m.dir.z) n.z (by
        have p1 : a * l.dir.z * N ^ 2 = V3.dot (V3.cross e m.dir) n * l.dir.z := by rw [← ha']; ring
        have p2 : b * m.dir.z * N ^ 2 = V3.dot (V3.cross e l.dir) n * m.dir.z := by rw [← hb']; ring
        rw [p1, p2, ← hsq, hn1, hn2, hn3]
        simp only [V3.dot, V3.cross, hn1, hn2, hn3]
        ring)
      dsimp only
      rw [show l.point1.x + a * l.dir.x - (m.point1.x + b * m.dir.x) = a * l.dir.x - (e.x + b * m.dir.x) by rw [e1]; ring,
        show l.point1.y + a * l.dir.y - (m.point1.y + b * m.dir.y) = a * l.dir.y - (e.y + b * m.dir.y) by rw [e2]; ring,
        show l.point1.z + a * l.dir.z - (m.point1.z + b * m.dir.z) = a * l.dir.z - (e.z + b * m.dir.z) by rw [e3]; ring, x1, x2, x3]
      obtain ⟨D, hD⟩ : ∃ D, D = V3.dot e n := ⟨_, rfl⟩
      rw [← hD]
      field_simp
      rw [← hsq]
      ring
    · rintro p q ⟨s, h1, h2, h3⟩ ⟨t, h4, h5, h6⟩
      have h1' : p.x = l.point1.x + s * l.dir.x := h1
      have h2' : p.y = l.point1.y + s * l.dir.y := h2
      have h3' : p.z = l.point1.z + s * l.dir.z := h3
      have h4' : q.x = m.point1.x + t * m.dir.x := h4
      have h5' : q.y = m.point1.y + t * m.dir.y := h5
      have h6' : q.z = m.point1.z + t * m.dir.z := h6
      rw [div_le_iff₀ hpos]
      apply V3.abs_le_of_sq (mul_nonneg (pointDistance3_nonneg _ _) hpos.le)
      rw [sq_abs, mul_pow, sq_pointDistance3, ← hsq]
      have e4 : V3.dot e n = (q.x - p.x) * n.x + (q.y - p.y) * n.y + (q.z - p.z) * n.z := by
        rw [h1', h2', h3', h4', h5', h6']
        simp only [V3.dot]
        rw [e1, e2, e3, hn1, hn2, hn3]
        ring
      rw [e4]
      rw [show (p.x - q.x) ^ 2 + (p.y - q.y) ^ 2 + (p.z - q.z) ^ 2 = (q.x - p.x) ^ 2 + (q.y - p.y) ^ 2 + (q.z - p.z) ^ 2 by ring]
      exact cauchy3 _ _ _ _ _ _

/-- C73: false.  The lines through (0,0,0), (1,0,0) and (0,1,0), (3999999,-3999,0)  cross (they are not parallel and lie in the plane
z = 0), but their directions make an angle of about 1e-3: `is_colinear_to` holds and the distance returned is 1. -/
theorem C73_line_distance_counterexample : ¬C73_line_distance_full_statement := by
  intro h
  obtain ⟨d, hd, -, hmin⟩ := h ⟨⟨0, 0, 0⟩, ⟨1, 0, 0⟩⟩ ⟨⟨0, 1, 0⟩, ⟨3999999, -3999, 0⟩⟩
    (by intro h; have := congrArg V3.x h; norm_num at this) (by intro h; have := congrArg V3.x h; norm_num at this)
  have hm := hmin ⟨3999999 / 4000, 0, 0⟩ ⟨3999999 / 4000, 0, 0⟩ ⟨3999999 / 4000, by norm_num, by norm_num, by norm_num⟩
    ⟨1 / 4000, by norm_num, by norm_num, by norm_num⟩
  have hz : V3.pointDistance (⟨3999999 / 4000, 0, 0⟩ : V3 ℝ) ⟨3999999 / 4000, 0, 0⟩ = 0 := by norm_num [V3.pointDistance, V3.norm]
  rw [hz] at hm
  have e1 : (⟨⟨0, 0, 0⟩, ⟨1, 0, 0⟩⟩ : Line3).dir = ⟨1, 0, 0⟩ := by ext <;> norm_num [Line3.dir]
  have e2 : (⟨⟨0, 1, 0⟩, ⟨3999999, -3999, 0⟩⟩ : Line3).dir = ⟨3999999, -4000, 0⟩ := by ext <;> norm_num [Line3.dir]
  have n1 : V3.norm (⟨1, 0, 0⟩ : V3 ℝ) = 1 := by norm_num [V3.norm]
  have n2 : V3.norm (⟨3999999, -4000, 0⟩ : V3 ℝ) = 4000001 := by
    unfold V3.norm
    rw [show (3999999 * 3999999 + -4000 * -4000 + 0 * 0 : ℝ) = 4000001 ^ 2 by norm_num]
    exact Real.sqrt_sq (by norm_num)
  have hc : isColinear (⟨1, 0, 0⟩ : V3 ℝ) ⟨3999999, -4000, 0⟩ = true := by
    classical
    unfold isColinear
    rw [n1, n2, if_neg (by norm_num), decide_eq_true_iff]
    unfold mathIsClose
    refine le_max_of_le_right ?_
    norm_num [V3.dot, abs_le]
  unfold Line3.lineDistance at hd
  rw [e1, e2, if_pos hc, n1, if_neg (by norm_num)] at hd
  have hv : V3.norm (V3.cross (⟨1, 0, 0⟩ : V3 ℝ) ((⟨0, 1, 0⟩ : V3 ℝ) - ⟨0, 0, 0⟩)) / 1 = 1 := by norm_num [V3.norm, V3.cross]
  rw [hv] at hd
  have := Option.some.inj hd
  linarith

example : isColinear (⟨1, 0, 0⟩ : V3 ℝ) ⟨0, 1, 0⟩ = true ↔ V3.cross (⟨1, 0, 0⟩ : V3 ℝ) ⟨0, 1, 0⟩ = ⟨0, 0, 0⟩ := by
  classical
  have n1 : V3.norm (⟨1, 0, 0⟩ : V3 ℝ) = 1 := by norm_num [V3.norm]
  have n2 : V3.norm (⟨0, 1, 0⟩ : V3 ℝ) = 1 := by norm_num [V3.norm]
  constructor
  · intro h
    unfold isColinear at h
    rw [n1, n2, if_neg (by norm_num), decide_eq_true_iff] at h
    norm_num [V3.dot, mathIsClose] at h
  · intro h
    have := congrArg V3.z h
    norm_num [V3.cross] at this

/-! ## Intersection of two lines -/

/-- The full statement: `Line3D.intersection` of two lines that cross is their common point. -/
def C73_intersection_full_statement : Prop :=
  ∀ (l m : Line3) (x : V3 ℝ), V3.cross l.dir m.dir ≠ ⟨0, 0, 0⟩ → OnLine3 l.point1 l.point2 x → OnLine3 m.point1 m.point2 x →
    l.intersection m = some (some x)

/-- C73: two lines that cross: `Line3D.intersection` returns the common point, when the directions are neither almost parallel nor
almost orthogonal (unless exactly orthogonal). -/
theorem C73_intersection_partial (l m : Line3) (x : V3 ℝ) (hx : V3.cross l.dir m.dir ≠ ⟨0, 0, 0⟩)
    (hc : isColinear l.dir m.dir = false) (ho : 1 / 10 ^ 6 < |V3.dot l.dir m.dir| ∨ V3.dot l.dir m.dir = 0)
    (h1 : OnLine3 l.point1 l.point2 x) (h2 : OnLine3 m.point1 m.point2 x) : l.intersection m = some (some x) := by
  have hn0 : V3.norm (V3.cross l.dir m.dir) ≠ 0 := by rwa [Ne, V3.norm_eq_zero_iff]
  obtain ⟨s, s1, s2, s3⟩ := h1
  obtain ⟨t, t1, t2, t3⟩ := h2
  have s1' : x.x = l.point1.x + s * l.dir.x := s1
  have s2' : x.y = l.point1.y + s * l.dir.y := s2
  have s3' : x.z = l.point1.z + s * l.dir.z := s3
  have t1' : x.x = m.point1.x + t * m.dir.x := t1
  have t2' : x.y = m.point1.y + t * m.dir.y := t2
  have t3' : x.z = m.point1.z + t * m.dir.z := t3
  have hd : l.lineDistance m = some 0 := by
    unfold Line3.lineDistance
    rw [if_neg (by rw [hc]; simp), if_neg hn0]
    have : V3.dot (m.point1 - l.point1) (V3.cross l.dir m.dir) = 0 := by
      simp only [V3.dot, V3.cross, V3.sub_x, V3.sub_y, V3.sub_z]
      rw [show m.point1.x = l.point1.x + s * l.dir.x - t * m.dir.x by linarith, show m.point1.y = l.point1.y + s * l.dir.y - t * m.dir.y by linarith,
        show m.point1.z = l.point1.z + s * l.dir.z - t * m.dir.z by linarith]
      ring
    rw [this, abs_zero, zero_div]
  have hlag : V3.dot l.dir l.dir * V3.dot m.dir m.dir - V3.dot l.dir m.dir * V3.dot m.dir l.dir = V3.norm (V3.cross l.dir m.dir) ^ 2 := by
    rw [V3.norm_pow_two]
    simp only [V3.dot, V3.cross]
    ring
  have hden : V3.dot l.dir l.dir * V3.dot m.dir m.dir - V3.dot l.dir m.dir * V3.dot m.dir l.dir ≠ 0 := by rw [hlag]; positivity
  have hclose : mathIsClose (0 : ℝ) 0 (1 / 10 ^ 6) := by rw [mathIsClose_zero (by norm_num), abs_zero]; norm_num
  unfold Line3.intersection
  rw [hd, Option.bind_some, if_neg (by rw [hc]; rintro (h | h); exacts [absurd h (by simp), h hclose])]
  by_cases hdot : mathIsClose (V3.dot l.dir m.dir) 0 (1 / 10 ^ 6)
  · rw [if_pos ⟨hclose, hdot⟩]
    have h0 : V3.dot l.dir m.dir = 0 := by
      rcases ho with ho | ho
      · rw [mathIsClose_zero (by norm_num)] at hdot
        linarith
      · exact ho
    have hl : l.point1 ≠ l.point2 := by
      intro e
      apply hx
      have : l.dir = ⟨0, 0, 0⟩ := (V3.sub_eq_zero_iff _ _).mpr e
      rw [this]
      ext <;> simp [V3.cross]
    obtain ⟨q, w, hq, hq2, -⟩ := C73_projection l hl m.point1
    rw [hq, Option.map_some]
    have hN := Line3.dir_pos hl
    have hdd : V3.dot l.dir l.dir ≠ 0 := by rw [← V3.norm_pow_two]; positivity
    unfold Line3.closestPoint at hq2
    rw [if_neg hdd] at hq2
    have hq3 := Option.some.inj hq2
    have ht : V3.dot (m.point1 - l.point1) l.dir / V3.dot l.dir l.dir = s := by
      rw [div_eq_iff hdd]
      simp only [V3.dot, V3.sub_x, V3.sub_y, V3.sub_z] at h0 ⊢
      rw [show m.point1.x = l.point1.x + s * l.dir.x - t * m.dir.x by linarith, show m.point1.y = l.point1.y + s * l.dir.y - t * m.dir.y by linarith,
        show m.point1.z = l.point1.z + s * l.dir.z - t * m.dir.z by linarith]
      linear_combination -t * h0
    rw [ht] at hq3
    congr 2
    rw [← hq3]
    ext <;> simp [s1', s2', s3'] <;> ring
  · rw [if_neg (by tauto)]
    dsimp only
    rw [if_neg hden]
    have ht : (V3.dot (l.point1 - m.point1) m.dir * V3.dot m.dir l.dir - V3.dot (l.point1 - m.point1) l.dir * V3.dot m.dir m.dir) /
        (V3.dot l.dir l.dir * V3.dot m.dir m.dir - V3.dot l.dir m.dir * V3.dot m.dir l.dir) = s := by
      rw [div_eq_iff hden]
      simp only [V3.dot, V3.sub_x, V3.sub_y, V3.sub_z]
      rw [show m.point1.x = l.point1.x + s * l.dir.x - t * m.dir.x by linarith, show m.point1.y = l.point1.y + s * l.dir.y - t * m.dir.y by linarith,
        show m.point1.z = l.point1.z + s * l.dir.z - t * m.dir.z by linarith]
      ring
    rw [ht]
    congr 2
    ext <;> simp [s1', s2', s3'] <;> ring

/-- C73: a point returned by `Line3D.intersection` is on the first line. -/
theorem C73_intersection_on_line (l m : Line3) (x : V3 ℝ) (h : l.intersection m = some (some x)) : OnLine3 l.point1 l.point2 x := by
  unfold Line3.intersection at h
  rw [Option.bind_eq_some_iff] at h
  obtain ⟨d, -, h⟩ := h
  split_ifs at h with h1 h2
  · cases h
  · rw [Option.map_eq_some_iff] at h
    obtain ⟨pr, hp, he⟩ := h
    have := Option.some.inj he
    subst this
    unfold Line3.pointProjection pointProjection3 at hp
    dsimp only at hp
    split_ifs at hp with h3
    cases hp
    exact ⟨V3.dot (m.point1 - l.point1) (l.point2 - l.point1) / V3.norm (l.point2 - l.point1) ^ 2, by simp; ring, by simp; ring, by simp; ring⟩
  · dsimp only at h
    split_ifs at h with h3
    cases h
    refine ⟨(V3.dot (l.point1 - m.point1) m.dir * V3.dot m.dir l.dir - V3.dot (l.point1 - m.point1) l.dir * V3.dot m.dir m.dir) /
        (V3.dot l.dir l.dir * V3.dot m.dir m.dir - V3.dot l.dir m.dir * V3.dot m.dir l.dir), ?_, ?_, ?_⟩
    all_goals
      simp only [V3.add_x, V3.add_y, V3.add_z, V3.smul_x, V3.smul_y, V3.smul_z]
      rw [mul_comm]
      rfl

/-- C73: false.  The lines through (0,0,0), (1e-3,0,0) and (1,1000,0), (1.001,1001,0) cross at (0,0,0); the dot product of the directions is 1e-6,
they are taken for orthogonal and the projection (1,0,0) of the point (1,1000,0) is returned. -/
theorem C73_intersection_counterexample : ¬C73_intersection_full_statement := by
  intro h
  obtain ⟨l, hl⟩ : ∃ l : Line3, l = ⟨⟨0, 0, 0⟩, ⟨1 / 1000, 0, 0⟩⟩ := ⟨_, rfl⟩
  obtain ⟨m, hm⟩ : ∃ m : Line3, m = ⟨⟨1, 1000, 0⟩, ⟨1001 / 1000, 1001, 0⟩⟩ := ⟨_, rfl⟩
  have e1 : l.dir = ⟨1 / 1000, 0, 0⟩ := by rw [hl]; ext <;> norm_num [Line3.dir]
  have e2 : m.dir = ⟨1 / 1000, 1, 0⟩ := by rw [hm]; ext <;> norm_num [Line3.dir]
  have hx : V3.cross l.dir m.dir = ⟨0, 0, 1 / 1000⟩ := by rw [e1, e2]; ext <;> norm_num [V3.cross]
  have hr := h l m ⟨0, 0, 0⟩ (by rw [hx]; intro he; have := congrArg V3.z he; norm_num at this)
    ⟨0, by rw [hl]; norm_num, by rw [hl]; norm_num, by rw [hl]; norm_num⟩
    ⟨-1000, by rw [hm]; norm_num, by rw [hm]; norm_num, by rw [hm]; norm_num⟩
  have n1 : V3.norm l.dir = 1 / 1000 := by
    rw [e1]
    unfold V3.norm
    rw [show (1 / 1000 * (1 / 1000) + 0 * 0 + 0 * 0 : ℝ) = (1 / 1000) ^ 2 by norm_num]
    exact Real.sqrt_sq (by norm_num)
  have n2 : 1 ≤ V3.norm m.dir := by
    rw [e2]
    unfold V3.norm
    exact Real.le_sqrt_of_sq_le (by norm_num)
  have hc : isColinear l.dir m.dir = false := by
    classical
    unfold isColinear
    rw [n1, if_neg (by intro h; rcases h with h | h <;> [norm_num at h; linarith]), decide_eq_false_iff_not]
    have hd : V3.dot l.dir m.dir = 1 / 1000000 := by rw [e1, e2]; norm_num [V3.dot]
    rw [hd]
    have hq : |(1 / 1000000 : ℝ)| / (1 / 1000) / V3.norm m.dir ≤ 1 / 1000 := by
      rw [div_le_iff₀ (by linarith)]
      norm_num [abs_of_pos]
      linarith
    have hq0 : 0 ≤ |(1 / 1000000 : ℝ)| / (1 / 1000) / V3.norm m.dir := by positivity
    obtain ⟨w, hw⟩ : ∃ w, w = |(1 / 1000000 : ℝ)| / (1 / 1000) / V3.norm m.dir := ⟨_, rfl⟩
    rw [← hw] at hq hq0 ⊢
    unfold mathIsClose
    rw [not_le, abs_of_nonneg hq0, abs_one, max_eq_right (by linarith : w ≤ 1), abs_of_neg (by linarith)]
    apply max_lt <;> norm_num <;> linarith
  have hd : l.lineDistance m = some 0 := by
    unfold Line3.lineDistance
    rw [if_neg (by rw [hc]; simp), hx]
    have : V3.norm (⟨0, 0, 1 / 1000⟩ : V3 ℝ) ≠ 0 := by
      rw [Ne, V3.norm_eq_zero_iff]; intro h; have := congrArg V3.z h; norm_num at this
    rw [if_neg this]
    have : V3.dot (m.point1 - l.point1) (⟨0, 0, 1 / 1000⟩ : V3 ℝ) = 0 := by rw [hl, hm]; norm_num [V3.dot]
    rw [this, abs_zero, zero_div]
  have hclose : mathIsClose (0 : ℝ) 0 (1 / 10 ^ 6) := by rw [mathIsClose_zero (by norm_num), abs_zero]; norm_num
  have hdot : mathIsClose (V3.dot l.dir m.dir) 0 (1 / 10 ^ 6) := by
    rw [mathIsClose_zero (by norm_num), e1, e2]; norm_num [V3.dot, abs_of_pos]
  unfold Line3.intersection at hr
  rw [hd, Option.bind_some, if_neg (by rw [hc]; rintro (h | h); exacts [absurd h (by simp), h hclose]), if_pos ⟨hclose, hdot⟩] at hr
  unfold Line3.pointProjection pointProjection3 at hr
  dsimp only at hr
  have hdir : l.point2 - l.point1 = ⟨1 / 1000, 0, 0⟩ := e1
  have hn : V3.norm (⟨1 / 1000, 0, 0⟩ : V3 ℝ) = 1 / 1000 := by rw [← e1]; exact n1
  rw [hdir, hn, if_neg (by norm_num), Option.map_some] at hr
  have := congrArg V3.x (Option.some.inj (Option.some.inj hr))
  rw [hl, hm] at this
  norm_num [V3.dot] at this

/-- C73: `Line2D.line_distance` of two parallel lines returns a point, not a number. -/
theorem C73_line_distance_2d_counterexample :
    (⟨⟨0, 0⟩, ⟨1, 0⟩⟩ : Line2).lineDistance ⟨⟨0, 1⟩, ⟨1, 1⟩⟩ = some (.point ⟨0, 0⟩) := by
  have h1 : lineIntersection (⟨0, 0⟩ : V2 ℝ) ⟨1, 0⟩ ⟨0, 1⟩ ⟨1, 1⟩ = none := by
    unfold lineIntersection
    norm_num
  have h2 : (⟨⟨0, 0⟩, ⟨1, 0⟩⟩ : Line2).lineIntersections ⟨⟨0, 1⟩, ⟨1, 1⟩⟩ = [] := by
    unfold Line2.lineIntersections
    dsimp only
    rw [h1]
  unfold Line2.lineDistance
  rw [h2, if_neg (by simp)]
  unfold Line2.pointProjection pointProjection2
  dsimp only
  have hdir : (⟨1, 0⟩ : V2 ℝ) - ⟨0, 0⟩ = ⟨1, 0⟩ := by ext <;> norm_num
  have hn : V2.norm (⟨1, 0⟩ : V2 ℝ) = 1 := by norm_num [V2.norm]
  rw [hdir, hn, if_neg (by norm_num), Option.map_some]
  congr 2
  ext <;> norm_num [V2.dot]

end Volmdlr.Intersect
