import Verif.Arc.OffsetModel
import Verif.Arc.BelongsProps
import Verif.Segment.Props

/-!
# C208, C209, C210: complementary, offset and symmetric arcs
-/

namespace Volmdlr.Arc

open Real Volmdlr.Angle

/-! ## C208 -/

lemma arc_total {a b : ℝ} (x : ℝ) (hab : ∀ n : ℤ, b ≠ a + n * (2 * π)) : (OnArc a b x ∨ OnArc b a x) ∧
    (OnArc a b x → OnArc b a x → (∃ n : ℤ, x = a + n * (2 * π)) ∨ ∃ n : ℤ, x = b + n * (2 * π)) := by
  have hp := pi_pos
  -- `b` is `d` after `a`, `x` is `t` after `a`
  have red : ∀ y : ℝ, ∃ d : ℝ, ∃ n : ℤ, 0 ≤ d ∧ d < 2 * π ∧ y = a + d + n * (2 * π) := by
    intro y
    refine ⟨toIcoMod Real.two_pi_pos 0 (y - a), toIcoDiv Real.two_pi_pos 0 (y - a), ?_, ?_, ?_⟩
    · exact (toIcoMod_mem_Ico Real.two_pi_pos 0 (y - a)).1
    · have := (toIcoMod_mem_Ico Real.two_pi_pos 0 (y - a)).2; linarith
    · have := toIcoMod_add_toIcoDiv_zsmul Real.two_pi_pos 0 (y - a)
      rw [zsmul_eq_mul] at this
      linarith
  obtain ⟨d, n, d0, d1, hb⟩ := red b
  obtain ⟨t, m, t0, t1, hx⟩ := red x
  have dpos : 0 < d := by
    rcases d0.lt_or_eq with h | h
    · exact h
    · exact absurd (by rw [hb, ← h, add_zero]) (hab n)
  constructor
  · rcases le_total t d with h | h
    · exact Or.inl ⟨t, d, n, m, t0, h, dpos, d1.le, hb, hx⟩
    · refine Or.inr ⟨t - d, 2 * π - d, -1 - n, m - n, by linarith, by linarith, by linarith, by linarith, ?_, ?_⟩
      · push_cast; rw [hb]; ring
      · push_cast; rw [hb, hx]; ring
  · rintro ⟨t', d', n', m', a1, a2, a3, a4, a5, a6⟩ ⟨s, e, k, l, b1, b2, b3, b4, b5, b6⟩
    have hd : d' = d := turn_unique a3 a4 dpos d1.le (n - n') (by push_cast; linarith)
    have he : e = 2 * π - d := turn_unique b3 b4 (by linarith) (by linarith) (-1 - n - k) (by push_cast; linarith)
    -- `t' = d + s` up to turns, with `t' ≤ d` and `d + s ≤ 2π`
    rw [hd] at a2
    rw [he] at b2
    have hq : t' = d + s + ((n + l - m' : ℤ) : ℝ) * (2 * π) := by push_cast; linarith
    have q1 : (n + l - m' : ℤ) ≤ 0 := by
      by_contra hc
      push Not at hc
      have : (1 : ℝ) ≤ ((n + l - m' : ℤ) : ℝ) := by exact_mod_cast hc
      nlinarith
    have q2 : -1 ≤ (n + l - m' : ℤ) := by
      by_contra hc
      push Not at hc
      have : ((n + l - m' : ℤ) : ℝ) ≤ -2 := by exact_mod_cast (by omega : (n + l - m' : ℤ) ≤ -2)
      nlinarith
    rcases (by omega : (n + l - m' : ℤ) = 0 ∨ (n + l - m' : ℤ) = -1) with h | h
    · rw [h] at hq
      push_cast at hq
      exact Or.inr ⟨l, by linarith [show s = 0 by linarith]⟩
    · rw [h] at hq
      push_cast at hq
      exact Or.inl ⟨m', by linarith [show t' = 0 by linarith]⟩

/-- **C208** the angles of an arc and its complementary arc add up to a full turn, and the complementary of the complementary arc is the arc. -/
theorem C208_angles {c : Circle2} (hc : c.Good) (a b : ℝ) (ha : Clear a) (hb : Clear b) (hab : a ≠ b) (arc : Arc2) (h : Arc2.make c (c.at a) (c.at b) = .ok arc) :
    ∃ co, arc.complementary = .ok co ∧ co.start = arc.fin ∧ co.fin = arc.start ∧ arc.angle + co.angle = 2 * π ∧ arc.length + co.length = 2 * π * c.radius ∧ co.complementary = .ok arc := by
  rw [make_clear hc ha hb] at h
  obtain rfl := Except.ok.inj h
  refine ⟨_, make_clear hc hb ha, rfl, rfl, ?_, ?_, make_clear hc ha hb⟩
  · unfold Arc2.angle endAfter
    dsimp only
    rcases lt_or_gt_of_ne hab with h1 | h1
    · rw [if_neg (not_le.mpr h1), if_pos h1.le]; ring
    · rw [if_pos h1.le, if_neg (not_le.mpr h1)]; ring
  · rw [(C57_angle_range2 _ _ _ _ (make_clear hc ha hb)).2.2, (C57_angle_range2 _ _ _ _ (make_clear hc hb ha)).2.2]
    unfold Arc2.angle endAfter
    dsimp only
    rcases lt_or_gt_of_ne hab with h1 | h1
    · rw [if_neg (not_le.mpr h1), if_pos h1.le]; ring
    · rw [if_pos h1.le, if_neg (not_le.mpr h1)]; ring

/-- **C208** each point of the circle is on an arc or on its complementary arc, and on both only near their common ends. -/
theorem C208_points {c : Circle2} (hc : c.Good) (a b x : ℝ) (hab : c.at a ≠ c.at b) (arc : Arc2) (h : Arc2.make c (c.at a) (c.at b) = .ok arc) {tol : ℝ} (htol : 0 ≤ tol) :
    ∃ co r s, arc.complementary = .ok co ∧ arc.pointBelongs (c.at x) tol = .ok r ∧ co.pointBelongs (c.at x) tol = .ok s ∧
      (r = true ∨ s = true) ∧ (r = true → s = true → V2.pointDistance (c.at x) (c.at a) ≤ tol ∨ V2.pointDistance (c.at x) (c.at b) ≤ tol) := by
  obtain ⟨a', e', h'⟩ := make_at hc b a
  obtain ⟨r, hr, hr'⟩ := C69_point_belongs hc a b x arc h htol
  obtain ⟨s, hs, hs'⟩ := C69_point_belongs hc b a x _ h' htol
  have hco : arc.complementary = .ok ⟨c, c.at b, c.at a, a', e'⟩ := by
    obtain ⟨_, _, _, _, rfl⟩ := make2_spec h
    exact h'
  have hne : ∀ n : ℤ, b ≠ a + n * (2 * π) := fun n e => hab (hc.at_eq_iff.mpr ⟨-n, by rw [e]; push_cast; ring⟩)
  obtain ⟨t1, t2⟩ := arc_total x hne
  refine ⟨_, r, s, hco, hr, hs, ?_, fun er es => ?_⟩
  · rcases t1 with h1 | h1
    · exact Or.inl (hr'.mpr (Or.inl h1))
    · exact Or.inr (hs'.mpr (Or.inl h1))
  · rcases hr'.mp er with h1 | h1 | h1
    · rcases hs'.mp es with h2 | h2 | h2
      · have hself : ∀ y : ℝ, (∃ n : ℤ, x = y + n * (2 * π)) → V2.pointDistance (c.at x) (c.at y) ≤ tol := by
          intro y hy
          rw [hc.at_eq_iff.mpr hy]
          have := hc.dist_le y y
          rw [sub_self, abs_zero, mul_zero] at this
          exact this.trans htol
        rcases t2 h1 h2 with h3 | h3
        · exact Or.inl (hself a h3)
        · exact Or.inr (hself b h3)
      · exact Or.inr h2
      · exact Or.inl h2
    · exact Or.inl h1
    · exact Or.inr h1

/-- The hypotheses of C208 are met. -/
example : Clear 0 ∧ Clear 1 ∧ (0 : ℝ) ≠ 1 ∧ (⟨⟨⟨0, 0⟩, ⟨⟨1, 0⟩, ⟨0, 1⟩⟩⟩, 2⟩ : Circle2).Good := by
  have := pi_gt_three
  refine ⟨⟨le_refl _, by positivity⟩, ⟨by norm_num, by linarith⟩, by norm_num, ⟨by norm_num, by norm_num, by norm_num, by norm_num⟩⟩

/-! ## C209 -/

/-- The unit vector from the centre to a point of the circle. -/
lemma unit_at {c : Circle2} (hc : c.Good) (t : ℝ) : V2.unitVector (c.at t - c.frame.origin) =
    some ⟨cos t * c.frame.basis.u.x + sin t * c.frame.basis.v.x, cos t * c.frame.basis.u.y + sin t * c.frame.basis.v.y⟩ := by
  have hn : V2.norm (c.at t - c.frame.origin) = c.radius := hc.dist_center t
  have hr := hc.pos.ne'
  unfold V2.unitVector
  rw [hn, if_neg hr]
  congr 1
  unfold Circle2.at
  ext
  · simp only [V2.sub_x]; field_simp; ring
  · simp only [V2.sub_y]; field_simp; ring

/-- The circle with another radius. -/
lemma at_radius (c : Circle2) (radius t : ℝ) : c.frame.origin + V2.smul radius
    ⟨cos t * c.frame.basis.u.x + sin t * c.frame.basis.v.x, cos t * c.frame.basis.u.y + sin t * c.frame.basis.v.y⟩ = (⟨c.frame, radius⟩ : Circle2).at t := by
  unfold Circle2.at
  ext
  · simp only [V2.add_x, V2.smul_x]; ring
  · simp only [V2.add_y, V2.smul_y]; ring

/-- The distance gained by the points of an arc from its centre when they move by `offset` to the right of the direction of the arc. -/
noncomputable def outward (c : Circle2) (offset : ℝ) : ℝ := open Classical in if c.IsTrigo then offset else -offset

/-- Two arcs are at the distance `offset`, the second to the right of the first: they have the same angle and, at each angle, the point of the second is the point of the first
moved along the radius. -/
def OffsetArcs (arc arc' : Arc2) (offset : ℝ) : Prop :=
  0 < arc'.circle.radius ∧ arc'.circle.frame = arc.circle.frame ∧ arc'.angle = arc.angle ∧
  ∀ t : ℝ, arc'.pointAtAbscissa (t * arc'.circle.radius) =
    arc.pointAtAbscissa (t * arc.circle.radius) + V2.smul (outward arc.circle offset / arc.circle.radius) (arc.pointAtAbscissa (t * arc.circle.radius) - arc.circle.frame.origin)

/-- C209 as expected by a user: the offset arc, or none when there is no circle. -/
def C209_full_statement : Prop := ∀ (c : Circle2), c.Good → ∀ (a b offset : ℝ) (arc : Arc2), Arc2.make c (c.at a) (c.at b) = .ok arc →
  c.radius + outward c offset ≠ 0 → arc.infinitePrimitive offset = .ok none ∨ ∃ arc', arc.infinitePrimitive offset = .ok (some arc') ∧ OffsetArcs arc arc' offset

open Classical in
lemma infinite_spec {c : Circle2} (hc : c.Good) (a b offset : ℝ) (arc : Arc2) (h : Arc2.make c (c.at a) (c.at b) = .ok arc) :
    arc.infinitePrimitive offset = if ¬ c.IsTrigo ∧ c.radius - offset < 0 then .ok none else
      (Arc2.make ⟨c.frame, c.radius + outward c offset⟩ ((⟨c.frame, c.radius + outward c offset⟩ : Circle2).at a) ((⟨c.frame, c.radius + outward c offset⟩ : Circle2).at b)).map some := by
  obtain ⟨A, B, hA, hB, rfl⟩ := make2_spec h
  unfold Arc2.infinitePrimitive
  dsimp only
  rw [unit_at hc, unit_at hc]
  dsimp only
  unfold Arc2.withRadius outward
  dsimp only
  by_cases ht : c.IsTrigo
  · rw [if_pos ht, if_neg (fun hh => hh.1 ht), if_pos ht, at_radius, at_radius]
  · rw [if_neg ht]
    by_cases hr : c.radius - offset < 0
    · rw [if_pos hr, if_pos ⟨ht, hr⟩]
    · rw [if_neg hr, if_neg (fun hh => hr hh.2), if_neg ht, at_radius, at_radius, sub_eq_add_neg]

/-- **C209** (partial: not for offsets that turn a circle inside out) the offset of an arc. -/
theorem C209_infinite_primitive_partial {c : Circle2} (hc : c.Good) (a b offset : ℝ) (arc : Arc2) (h : Arc2.make c (c.at a) (c.at b) = .ok arc)
    (ho : 0 < c.radius + outward c offset) : ∃ arc', arc.infinitePrimitive offset = .ok (some arc') ∧ OffsetArcs arc arc' offset := by
  rw [infinite_spec hc a b offset arc h]
  have hc' : (⟨c.frame, c.radius + outward c offset⟩ : Circle2).Good := ⟨hc.uu, hc.vv, hc.uv, ho⟩
  rw [if_neg]
  swap
  · rintro ⟨h1, h2⟩
    unfold outward at ho
    rw [if_neg h1] at ho
    linarith
  obtain ⟨A, B, hA, hB, rfl⟩ := make2_spec h
  rw [hc.pointAngle_at] at hA hB
  unfold Arc2.make
  rw [hc'.pointAngle_at, hc'.pointAngle_at, hA, hB]
  refine ⟨_, rfl, ho, rfl, rfl, fun t => ?_⟩
  rw [C57_point_at_abscissa hc' a _ rfl rfl, C57_point_at_abscissa hc a _ rfl rfl, mul_div_cancel_right₀ _ hc.pos.ne', mul_div_cancel_right₀ _ hc'.pos.ne']
  have hr := hc.pos.ne'
  unfold Circle2.at
  ext
  · simp only [V2.add_x, V2.smul_x, V2.sub_x]; field_simp; ring
  · simp only [V2.add_y, V2.smul_y, V2.sub_y]; field_simp; ring

/-- **C209** an arc of the clockwise direction has no offset beyond its centre. -/
theorem C209_none {c : Circle2} (hc : c.Good) (a b offset : ℝ) (arc : Arc2) (h : Arc2.make c (c.at a) (c.at b) = .ok arc) (ht : ¬ c.IsTrigo) :
    arc.infinitePrimitive offset = .ok none ↔ c.radius < offset := by
  rw [infinite_spec hc a b offset arc h]
  by_cases hr : c.radius - offset < 0
  · rw [if_pos ⟨ht, hr⟩]
    exact ⟨fun _ => by linarith, fun _ => rfl⟩
  · rw [if_neg (fun hh => hr hh.2)]
    refine ⟨fun hh => ?_, fun hh => absurd (by linarith) hr⟩
    rcases hm : Arc2.make ⟨c.frame, c.radius + outward c offset⟩ ((⟨c.frame, c.radius + outward c offset⟩ : Circle2).at a) ((⟨c.frame, c.radius + outward c offset⟩ : Circle2).at b) with e | r
    · rw [hm] at hh; cases hh
    · rw [hm] at hh; cases hh

/-- The unit circle. -/
noncomputable def circle1 : Circle2 := ⟨⟨⟨0, 0⟩, ⟨⟨1, 0⟩, ⟨0, 1⟩⟩⟩, 1⟩

lemma circle1_good : circle1.Good := by unfold circle1; exact ⟨by norm_num, by norm_num, by norm_num, by norm_num⟩

lemma circle1_trigo : circle1.IsTrigo := by unfold Circle2.IsTrigo circle1 V2.cross; norm_num

/-- **C209** false: with the direct direction, a circle of negative radius is built. -/
theorem C209_counterexample : ¬ C209_full_statement := by
  intro h
  obtain ⟨a', e', h'⟩ := make_at circle1_good 0 1
  have ho : circle1.radius + outward circle1 (-2) = -1 := by unfold outward; rw [if_pos circle1_trigo]; unfold circle1; norm_num
  have hs := infinite_spec circle1_good 0 1 (-2) _ h'
  rw [if_neg (fun hh => hh.1 circle1_trigo), ho] at hs
  rcases h circle1 circle1_good 0 1 (-2) _ h' (by rw [ho]; norm_num) with h1 | ⟨arc', h1, h2⟩
  · rw [hs] at h1
    rcases hm : Arc2.make ⟨circle1.frame, -1⟩ ((⟨circle1.frame, -1⟩ : Circle2).at 0) ((⟨circle1.frame, -1⟩ : Circle2).at 1) with e | r
    · rw [hm] at h1; cases h1
    · rw [hm] at h1; cases h1
  · rw [hs] at h1
    rcases hm : Arc2.make ⟨circle1.frame, -1⟩ ((⟨circle1.frame, -1⟩ : Circle2).at 0) ((⟨circle1.frame, -1⟩ : Circle2).at 1) with e | r
    · rw [hm] at h1; cases h1
    · rw [hm] at h1
      obtain ⟨A, B, -, -, rfl⟩ := make2_spec hm
      cases h1
      have := h2.1
      dsimp only at this
      linarith

/-- The hypotheses of C209 are met, with both directions. -/
example : 0 < circle1.radius + outward circle1 3 ∧ 0 < circle1.reverse.radius + outward circle1.reverse (1 / 2) ∧ circle1.reverse.Good := by
  have hn : ¬ circle1.reverse.IsTrigo := by unfold Circle2.IsTrigo Circle2.reverse circle1 V2.cross; norm_num
  refine ⟨?_, ?_, circle1_good.reverse⟩
  · unfold outward; rw [if_pos circle1_trigo]; unfold circle1; norm_num
  · unfold outward; rw [if_neg hn]; unfold Circle2.reverse circle1; norm_num

/-! ## C210 -/

/-- C210 as expected by a user: the points of the symmetric arc are the symmetric points. -/
def C210_full_statement : Prop := ∀ (c : Circle2), c.Good → ∀ (a b : ℝ) (arc : Arc2), Arc2.make c (c.at a) (c.at b) = .ok arc → ∀ p1 p2 : V2 ℝ, p1 ≠ p2 →
  ∃ arc', arc.axialSymmetry p1 p2 = .ok arc' ∧ ∀ x p r, Volmdlr.axialSymmetry (c.at x) p1 p2 = some p → arc.pointBelongs (c.at x) = .ok r → arc'.pointBelongs p = .ok r

/-- The symmetry by a line by the centre, on the angles of the circle. -/
lemma mirror_angle {c : Circle2} (hc : c.Good) (p1 p2 : V2 ℝ) (h : p1 ≠ p2) (ho : OnLine2 p1 p2 c.frame.origin) :
    ∃ m : ℝ, ∀ t, Volmdlr.axialSymmetry (c.at t) p1 p2 = some (c.at (m - t)) := by
  obtain ⟨d, hd⟩ := V2.unitVector_some (u := p2 - p1) (by rw [Ne, V2.sub_eq_zero_iff]; exact h)
  obtain ⟨npos, hd1, hd2⟩ := V2.unitVector_spec hd
  obtain ⟨uu, vv, uv, hr⟩ := hc
  obtain ⟨k, kx, ky⟩ := ho
  -- the direction of the line in the frame
  have hx := congrArg V2.x hd1
  have hy := congrArg V2.y hd1
  simp only [V2.sub_x, V2.sub_y, V2.smul_x, V2.smul_y] at hx hy
  simp only [V2.dot] at hd2
  set n := V2.norm (p2 - p1)
  have hsign := Circle2.Good.sign_spec (c := c) ⟨uu, vv, uv, hr⟩
  obtain ⟨hs, hvx, hvy⟩ := hsign
  set U := d.x * c.frame.basis.u.x + d.y * c.frame.basis.u.y with hU
  set V := d.x * c.frame.basis.v.x + d.y * c.frame.basis.v.y with hV
  have hs2 : c.sign ^ 2 = 1 := by rcases hs with e | e <;> rw [e] <;> norm_num
  have hUV : U ^ 2 + V ^ 2 = 1 := by
    rw [hU, hV, hvx, hvy]
    linear_combination (c.frame.basis.u.x ^ 2 + c.frame.basis.u.y ^ 2) * hd2 + uu + (d.y * c.frame.basis.u.x - d.x * c.frame.basis.u.y) ^ 2 * hs2
  have edx : d.x = U * c.frame.basis.u.x + V * c.frame.basis.v.x := by
    rw [hU, hV, hvx, hvy]
    linear_combination -d.x * uu - (d.x * c.frame.basis.u.y ^ 2 - d.y * c.frame.basis.u.x * c.frame.basis.u.y) * hs2
  have edy : d.y = U * c.frame.basis.u.y + V * c.frame.basis.v.y := by
    rw [hU, hV, hvx, hvy]
    linear_combination -d.y * uu - (d.y * c.frame.basis.u.x ^ 2 - d.x * c.frame.basis.u.x * c.frame.basis.u.y) * hs2
  obtain ⟨f, hf1, hf2⟩ : ∃ f, U = cos f ∧ V = sin f := by
    refine ⟨Complex.arg ⟨U, V⟩, ?_, ?_⟩
    · rw [Complex.cos_arg]
      · have : ‖(⟨U, V⟩ : ℂ)‖ = 1 := by rw [Complex.norm_eq_sqrt_sq_add_sq]; dsimp only; rw [hUV, Real.sqrt_one]
        rw [this, div_one]
      · intro e
        have e1 := congrArg Complex.re e
        have e2 := congrArg Complex.im e
        simp only [Complex.zero_re, Complex.zero_im] at e1 e2
        rw [e1, e2] at hUV
        norm_num at hUV
    · rw [Complex.sin_arg]
      have : ‖(⟨U, V⟩ : ℂ)‖ = 1 := by rw [Complex.norm_eq_sqrt_sq_add_sq]; dsimp only; rw [hUV, Real.sqrt_one]
      rw [this, div_one]
  refine ⟨2 * f, fun t => ?_⟩
  obtain ⟨q, hq, -, he⟩ := axialSymmetry_eq (c.at t) p1 p2 h
  rw [he]
  congr 1
  -- the abscissa of the projection
  have hn : n ≠ 0 := npos.ne'
  have hdot : q * n = ((c.at t).x - p1.x) * d.x + ((c.at t).y - p1.y) * d.y := by
    apply mul_right_cancel₀ hn
    simp only [V2.dot, V2.sub_x, V2.sub_y] at hq
    rw [hx, hy] at hq
    linear_combination hq - q * n ^ 2 * hd2
  rw [hx] at kx
  rw [hy] at ky
  -- from the centre
  have hdot2 : q * n = k * n + c.radius * (cos t * U + sin t * V) := by
    rw [hdot]
    have e1 : (c.at t).x = c.frame.origin.x + c.radius * (cos t * c.frame.basis.u.x + sin t * c.frame.basis.v.x) := rfl
    have e2 : (c.at t).y = c.frame.origin.y + c.radius * (cos t * c.frame.basis.u.y + sin t * c.frame.basis.v.y) := rfl
    rw [e1, e2, kx, ky, hU, hV]
    linear_combination k * n * hd2
  have c1 : cos (2 * f - t) = 2 * U * (cos t * U + sin t * V) - cos t := by
    rw [cos_sub, cos_two_mul, sin_two_mul, ← hf1, ← hf2]; ring
  have c2 : sin (2 * f - t) = 2 * V * (cos t * U + sin t * V) - sin t := by
    rw [sin_sub, cos_two_mul, sin_two_mul, ← hf1, ← hf2]
    linear_combination -2 * sin t * hUV
  have e1 : (c.at t).x = c.frame.origin.x + c.radius * (cos t * c.frame.basis.u.x + sin t * c.frame.basis.v.x) := rfl
  have e2 : (c.at t).y = c.frame.origin.y + c.radius * (cos t * c.frame.basis.u.y + sin t * c.frame.basis.v.y) := rfl
  have e3 : (c.at (2 * f - t)).x = c.frame.origin.x + c.radius * (cos (2 * f - t) * c.frame.basis.u.x + sin (2 * f - t) * c.frame.basis.v.x) := rfl
  have e4 : (c.at (2 * f - t)).y = c.frame.origin.y + c.radius * (cos (2 * f - t) * c.frame.basis.u.y + sin (2 * f - t) * c.frame.basis.v.y) := rfl
  ext
  · simp only [V2.add_x, V2.sub_x, V2.smul_x]
    rw [e3, e1, c1, c2, hx]
    linear_combination 2 * d.x * hdot2 - 2 * kx + 2 * c.radius * (cos t * U + sin t * V) * edx
  · simp only [V2.add_y, V2.sub_y, V2.smul_y]
    rw [e4, e2, c1, c2, hy]
    linear_combination 2 * d.y * hdot2 - 2 * ky + 2 * c.radius * (cos t * U + sin t * V) * edy

lemma onArc_mirror (m a b x : ℝ) : OnArc (m - a) (m - b) (m - x) ↔ OnArc b a x := by
  have key : ∀ a b x m : ℝ, OnArc b a x → OnArc (m - a) (m - b) (m - x) := by
    rintro a b x m ⟨t, d, n, k, h1, h2, h3, h4, h5, h6⟩
    exact ⟨d - t, d, n, n - k, by linarith, by linarith, h3, h4, by rw [h5]; ring, by rw [h5, h6]; push_cast; ring⟩
  refine ⟨fun h => ?_, key a b x m⟩
  have := key (m - b) (m - a) (m - x) m h
  simpa using this

/-- **C210** (partial: the other arc) for a line by the centre, the points of the answered arc are the symmetric points of the complementary arc. -/
theorem C210_axial_symmetry_partial {c : Circle2} (hc : c.Good) (a b : ℝ) (arc : Arc2) (h : Arc2.make c (c.at a) (c.at b) = .ok arc) (p1 p2 : V2 ℝ) (hp : p1 ≠ p2)
    (ho : OnLine2 p1 p2 c.frame.origin) {tol : ℝ} (htol : 0 ≤ tol) :
    ∃ arc' co, arc.axialSymmetry p1 p2 = .ok arc' ∧ arc.complementary = .ok co ∧ Volmdlr.axialSymmetry arc.start p1 p2 = some arc'.start ∧ Volmdlr.axialSymmetry arc.fin p1 p2 = some arc'.fin ∧
      ∀ x, ∃ p r, Volmdlr.axialSymmetry (c.at x) p1 p2 = some p ∧ co.pointBelongs (c.at x) tol = .ok r ∧ arc'.pointBelongs p tol = .ok r := by
  obtain ⟨m, hm⟩ := mirror_angle hc p1 p2 hp ho
  obtain ⟨a1, e1, h1⟩ := make_at hc (m - a) (m - b)
  obtain ⟨a2, e2, h2⟩ := make_at hc b a
  obtain ⟨A, B, -, -, rfl⟩ := make2_spec h
  refine ⟨⟨c, c.at (m - a), c.at (m - b), a1, e1⟩, ⟨c, c.at b, c.at a, a2, e2⟩, ?_, h2, hm a, hm b, fun x => ?_⟩
  · unfold Arc2.axialSymmetry
    dsimp only
    rw [hm a, hm b]
    exact h1
  · obtain ⟨r, hr, hr'⟩ := C69_point_belongs hc b a x _ h2 htol
    obtain ⟨s, hs, hs'⟩ := C69_point_belongs hc (m - a) (m - b) (m - x) _ h1 htol
    refine ⟨_, r, hm x, hr, ?_⟩
    rw [hs]
    congr 1
    rw [Bool.eq_iff_iff, hr', hs', onArc_mirror]
    have hd : ∀ y : ℝ, V2.pointDistance (c.at (m - x)) (c.at (m - y)) = V2.pointDistance (c.at x) (c.at y) := by
      intro y
      obtain ⟨p', q', ep, eq, -, hpq, -⟩ := C10_axialSymmetry (c.at x) (c.at y) p1 p2 hp
      rw [hm x] at ep
      rw [hm y] at eq
      cases ep
      cases eq
      exact hpq
    rw [hd a, hd b]
    tauto

/-- **C210** false: the circle keeps its direction. -/
theorem C210_counterexample : ¬ C210_full_statement := by
  have hp := pi_gt_three
  intro h
  obtain ⟨A, B, hmk⟩ := make_at circle1_good 0 (π / 2)
  have hl : (⟨0, 0⟩ : V2 ℝ) ≠ ⟨1, 0⟩ := by intro e; have := congrArg V2.x e; norm_num at this
  have ho : OnLine2 (⟨0, 0⟩ : V2 ℝ) ⟨1, 0⟩ circle1.frame.origin := ⟨0, by unfold circle1; norm_num, by unfold circle1; norm_num⟩
  obtain ⟨arc', h1, h2⟩ := h circle1 circle1_good 0 (π / 2) _ hmk ⟨0, 0⟩ ⟨1, 0⟩ hl
  obtain ⟨arc'', co, h3, h4, -, -, h5⟩ := C210_axial_symmetry_partial circle1_good 0 (π / 2) _ hmk ⟨0, 0⟩ ⟨1, 0⟩ hl ho (tol := 1 / 10 ^ 6) (by norm_num)
  rw [h1] at h3
  cases h3
  obtain ⟨r, hr, hr'⟩ := C69_point_belongs circle1_good 0 (π / 2) (π / 4) _ hmk (tol := 1 / 10 ^ 6) (by norm_num)
  obtain ⟨p, s, e1, e2, e3⟩ := h5 (π / 4)
  have e4 := h2 (π / 4) p r e1 hr
  rw [e3] at e4
  cases e4
  -- the middle of the arc is on the arc and far of its ends
  have hon : OnArc 0 (π / 2) (π / 4) := ⟨π / 4, π / 2, 0, 0, by linarith, by linarith, by linarith, by linarith, by push_cast; ring, by push_cast; ring⟩
  have hrt := hr'.mpr (Or.inl hon)
  have hne : circle1.at 0 ≠ circle1.at (π / 2) := by
    intro e
    have := congrArg V2.x e
    unfold Circle2.at circle1 at this
    norm_num at this
  obtain ⟨co', r', s', f1, f2, f3, -, f5⟩ := C208_points circle1_good 0 (π / 2) (π / 4) hne _ hmk (tol := 1 / 10 ^ 6) (by norm_num)
  rw [h4] at f1
  cases f1
  rw [hr] at f2
  rw [e2] at f3
  cases f2
  cases f3
  have hfar : ∀ y : ℝ, (y = 0 ∨ y = π / 2) → ¬ V2.pointDistance (circle1.at (π / 4)) (circle1.at y) ≤ 1 / 10 ^ 6 := by
    intro y hy hle
    have hsq := circle1_good.dist_sq (π / 4) y
    have hcos : cos (π / 4 - y) = √2 / 2 := by
      rcases hy with rfl | rfl
      · rw [sub_zero, cos_pi_div_four]
      · rw [show π / 4 - π / 2 = -(π / 4) by ring, cos_neg, cos_pi_div_four]
    rw [hcos] at hsq
    have h0 := pointDistance_nonneg (circle1.at (π / 4)) (circle1.at y)
    have hrad : circle1.radius = 1 := rfl
    rw [hrad] at hsq
    have h15 : √2 ≤ 3 / 2 := by rw [Real.sqrt_le_left (by norm_num)]; norm_num
    nlinarith
  rcases f5 hrt hrt with g | g
  · exact hfar 0 (Or.inl rfl) g
  · exact hfar _ (Or.inr rfl) g

end Volmdlr.Arc
