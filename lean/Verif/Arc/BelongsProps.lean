import Verif.Arc.Props

/-!
# C69: membership and abscissa of the points of an arc; C70: arcs through three points
-/

namespace Volmdlr.Arc

open Real Volmdlr.Angle

/-- The angle `x` is on the arc going from the angle `a` to the angle `b` in the direction of the circle (a full turn when `a` and `b`
are the same up to full turns); angles are counted up to full turns. -/
def OnArc (a b x : ℝ) : Prop :=
  ∃ t d : ℝ, ∃ n m : ℤ, 0 ≤ t ∧ t ≤ d ∧ 0 < d ∧ d ≤ 2 * π ∧ b = a + d + n * (2 * π) ∧ x = a + t + m * (2 * π)

lemma turn_unique {d e : ℝ} (hd : 0 < d) (hd' : d ≤ 2 * π) (he : 0 < e) (he' : e ≤ 2 * π) (n : ℤ) (h : d = e + n * (2 * π)) : d = e := by
  have hp := pi_pos
  have l1 : (n : ℝ) < 1 := by by_contra hc; push Not at hc; nlinarith
  have l2 : (-1 : ℝ) < n := by by_contra hc; push Not at hc; nlinarith
  have l1' : n < 1 := by exact_mod_cast l1
  have l2' : -1 < n := by exact_mod_cast l2
  rw [show n = 0 by omega] at h
  simpa using h

lemma Circle2.Good.dist_center {c : Circle2} (hc : c.Good) (t : ℝ) : V2.pointDistance (c.at t) c.frame.origin = c.radius := by
  have : V2.pointDistance (c.at t) c.frame.origin ^ 2 = c.radius ^ 2 := by
    obtain ⟨uu, vv, uv, -⟩ := hc
    unfold V2.pointDistance
    rw [norm2_sq]
    unfold Circle2.at
    simp only [V2.sub_x, V2.sub_y]
    linear_combination (c.radius ^ 2 * cos t ^ 2) * uu + (c.radius ^ 2 * sin t ^ 2) * vv +
      (2 * c.radius ^ 2 * cos t * sin t) * uv + c.radius ^ 2 * sin_sq_add_cos_sq t
  exact (pow_left_inj₀ (pointDistance_nonneg _ _) hc.pos.le two_ne_zero).1 this

/-- The clockwise angle between two points of the circle, seen from the centre. -/
lemma Circle2.Good.clockwise {c : Circle2} (hc : c.Good) (x y : ℝ) :
    0 < clockwiseAngle (c.at x - c.frame.origin) (c.at y - c.frame.origin) ∧
    clockwiseAngle (c.at x - c.frame.origin) (c.at y - c.frame.origin) ≤ 2 * π ∧
    ∃ n : ℤ, y = x - c.sign * clockwiseAngle (c.at x - c.frame.origin) (c.at y - c.frame.origin) + n * (2 * π) := by
  have hr := hc.pos
  have n1 : V2.norm (c.at x - c.frame.origin) = c.radius := hc.dist_center x
  have n2 : V2.norm (c.at y - c.frame.origin) = c.radius := hc.dist_center y
  have z : V2.norm ⟨0, 0⟩ = 0 := by unfold V2.norm; simp
  have h1 : c.at x - c.frame.origin ≠ ⟨0, 0⟩ := by
    intro e; rw [e, z] at n1; exact hr.ne n1
  have h2 : c.at y - c.frame.origin ≠ ⟨0, 0⟩ := by
    intro e; rw [e, z] at n2; exact hr.ne n2
  obtain ⟨k1, k2, k3⟩ := C54_clockwise_angle _ _ h1 h2
  refine ⟨k1, k2, ?_⟩
  set ca := clockwiseAngle (c.at x - c.frame.origin) (c.at y - c.frame.origin)
  rw [n1, n2] at k3
  have hrot := hc.rotation_at x (-ca)
  have : c.at y = c.at (x - c.sign * ca) := by
    rw [show x - c.sign * ca = x + c.sign * -ca by ring, ← hrot]
    have ex := congrArg V2.x k3
    have ey := congrArg V2.y k3
    unfold V2.rotation V2.rotationCS at ex ey ⊢
    simp only [V2.smul_x, V2.smul_y, V2.sub_x, V2.sub_y, sub_zero, add_zero] at ex ey
    have ex' := mul_right_cancel₀ hr.ne' ex
    have ey' := mul_right_cancel₀ hr.ne' ey
    ext
    · simp only [V2.sub_x, V2.sub_y]; linarith
    · simp only [V2.sub_x, V2.sub_y]; linarith
  exact hc.at_eq_iff.1 this

lemma Circle2.Good.reverse {c : Circle2} (hc : c.Good) : c.reverse.Good := by
  obtain ⟨uu, vv, uv, hr⟩ := hc
  unfold Circle2.reverse
  constructor
  · exact uu
  · simpa using vv
  · simp only [V2.neg_x, V2.neg_y]; linarith
  · exact hr

lemma reverse_at (c : Circle2) (t : ℝ) : c.reverse.at (-t) = c.at t := by
  unfold Circle2.at Circle2.reverse
  simp

lemma make_at {c : Circle2} (hc : c.Good) (x y : ℝ) :
    ∃ a e, Arc2.make c (c.at x) (c.at y) = .ok ⟨c, c.at x, c.at y, a, e⟩ := by
  unfold Arc2.make
  rw [hc.pointAngle_at, hc.pointAngle_at]
  exact ⟨_, _, rfl⟩

/-- What both `point_belongs` and `abscissa` compute: the clockwise arc with the same points. -/
lemma clockwiseArc {c : Circle2} (hc : c.Good) (x y a e : ℝ) :
    ∃ arc' : Arc2, (open Classical in if c.IsTrigo then Arc2.reverse ⟨c, c.at x, c.at y, a, e⟩ else .ok ⟨c, c.at x, c.at y, a, e⟩) = .ok arc' ∧
      arc'.circle.frame.origin = c.frame.origin ∧
      arc'.start = c.at (if c.sign = 1 then y else x) ∧ arc'.fin = c.at (if c.sign = 1 then x else y) := by
  by_cases ht : c.IsTrigo
  · obtain ⟨a', e', h⟩ := make_at hc.reverse (-y) (-x)
    rw [reverse_at, reverse_at] at h
    have h1 := hc.trigo_iff.1 ht
    refine ⟨_, by rw [if_pos ht]; exact h, rfl, ?_, ?_⟩
    · rw [if_pos h1]
    · rw [if_pos h1]
  · have h1 : c.sign ≠ 1 := fun h => ht (hc.trigo_iff.2 h)
    refine ⟨_, by rw [if_neg ht], rfl, ?_, ?_⟩
    · rw [if_neg h1]
    · rw [if_neg h1]

/-- The three clockwise angles of an arc and a point: with `ps`, `pe` measured from the start and to the end of the clockwise arc,
`ps + pe` is the angle of the arc when the point is on the arc, and that angle plus a turn when it is not. -/
lemma clockwise_three {c : Circle2} (hc : c.Good) (a b x : ℝ) :
    let s := c.at (if c.sign = 1 then b else a) - c.frame.origin
    let e := c.at (if c.sign = 1 then a else b) - c.frame.origin
    let p := c.at x - c.frame.origin
    0 < clockwiseAngle s e ∧ clockwiseAngle s e ≤ 2 * π ∧
    (∃ n : ℤ, b = a + clockwiseAngle s e + n * (2 * π)) ∧
    (clockwiseAngle s p + clockwiseAngle p e = clockwiseAngle s e ∨
      clockwiseAngle s p + clockwiseAngle p e = clockwiseAngle s e + 2 * π) ∧
    0 < clockwiseAngle s p ∧ clockwiseAngle s p ≤ 2 * π ∧ 0 < clockwiseAngle p e ∧ clockwiseAngle p e ≤ 2 * π ∧
    (∃ n : ℤ, x = a + (if c.sign = 1 then clockwiseAngle p e else clockwiseAngle s p) + n * (2 * π)) ∧
    (∃ n : ℤ, b = x + (if c.sign = 1 then clockwiseAngle s p else clockwiseAngle p e) + n * (2 * π)) := by
  dsimp only
  have hp := pi_pos
  rcases hc.sign_spec.1 with hs | hs
  · simp only [hs, if_true]
    obtain ⟨d1, d2, n, hn⟩ := hc.clockwise b a
    obtain ⟨s1, s2, m, hm⟩ := hc.clockwise b x
    obtain ⟨e1, e2, k, hk⟩ := hc.clockwise x a
    rw [hs, one_mul] at hn hm hk
    refine ⟨d1, d2, ⟨-n, by push_cast; linarith⟩, ?_, s1, s2, e1, e2, ⟨-k, by push_cast; linarith⟩, ⟨-m, by push_cast; linarith⟩⟩
    set d := clockwiseAngle (c.at b - c.frame.origin) (c.at a - c.frame.origin)
    set ps := clockwiseAngle (c.at b - c.frame.origin) (c.at x - c.frame.origin)
    set pe := clockwiseAngle (c.at x - c.frame.origin) (c.at a - c.frame.origin)
    have h : ps + pe = d + ((m + k - n : ℤ) : ℝ) * (2 * π) := by push_cast; linarith
    have l1 : ((m + k - n : ℤ) : ℝ) < 2 := by by_contra hc; push Not at hc; nlinarith
    have l2 : (-1 : ℝ) < ((m + k - n : ℤ) : ℝ) := by by_contra hc; push Not at hc; nlinarith
    have l1' : m + k - n < 2 := by exact_mod_cast l1
    have l2' : -1 < m + k - n := by exact_mod_cast l2
    have : m + k - n = 0 ∨ m + k - n = 1 := by omega
    rcases this with e | e <;> rw [e] at h
    · left; simpa using h
    · right; push_cast at h; linarith
  · have hne : ¬((-1 : ℝ) = 1) := by norm_num
    simp only [hs, if_neg hne]
    obtain ⟨d1, d2, n, hn⟩ := hc.clockwise a b
    obtain ⟨s1, s2, m, hm⟩ := hc.clockwise a x
    obtain ⟨e1, e2, k, hk⟩ := hc.clockwise x b
    rw [hs] at hn hm hk
    refine ⟨d1, d2, ⟨n, by linarith⟩, ?_, s1, s2, e1, e2, ⟨m, by linarith⟩, ⟨k, by linarith⟩⟩
    set d := clockwiseAngle (c.at a - c.frame.origin) (c.at b - c.frame.origin)
    set ps := clockwiseAngle (c.at a - c.frame.origin) (c.at x - c.frame.origin)
    set pe := clockwiseAngle (c.at x - c.frame.origin) (c.at b - c.frame.origin)
    have h : ps + pe = d + ((n - m - k : ℤ) : ℝ) * (2 * π) := by push_cast; linarith
    have l1 : ((n - m - k : ℤ) : ℝ) < 2 := by by_contra hc; push Not at hc; nlinarith
    have l2 : (-1 : ℝ) < ((n - m - k : ℤ) : ℝ) := by by_contra hc; push Not at hc; nlinarith
    have l1' : n - m - k < 2 := by exact_mod_cast l1
    have l2' : -1 < n - m - k := by exact_mod_cast l2
    have : n - m - k = 0 ∨ n - m - k = 1 := by omega
    rcases this with e | e <;> rw [e] at h
    · left; simpa using h
    · right; push_cast at h; linarith

/-- Being on the arc, for a point other than the extremities, in terms of the three angles. -/
lemma onArc_iff {c : Circle2} (hc : c.Good) {a b x : ℝ} (hxa : c.at x ≠ c.at a) (hxb : c.at x ≠ c.at b) :
    let s := c.at (if c.sign = 1 then b else a) - c.frame.origin
    let e := c.at (if c.sign = 1 then a else b) - c.frame.origin
    let p := c.at x - c.frame.origin
    OnArc a b x ↔ clockwiseAngle s p + clockwiseAngle p e = clockwiseAngle s e := by
  dsimp only
  have hp := pi_pos
  obtain ⟨d1, d2, ⟨nd, hnd⟩, hsum, s1, s2, e1, e2, ⟨nx, hnx⟩, ⟨nb, hnb⟩⟩ := clockwise_three hc a b x
  set d := clockwiseAngle (c.at (if c.sign = 1 then b else a) - c.frame.origin) (c.at (if c.sign = 1 then a else b) - c.frame.origin)
  set ps := clockwiseAngle (c.at (if c.sign = 1 then b else a) - c.frame.origin) (c.at x - c.frame.origin)
  set pe := clockwiseAngle (c.at x - c.frame.origin) (c.at (if c.sign = 1 then a else b) - c.frame.origin)
  set A := if c.sign = 1 then pe else ps with hA
  set B := if c.sign = 1 then ps else pe with hB
  have hAB : A + B = ps + pe := by
    rw [hA, hB]; split_ifs <;> ring
  have hA0 : 0 < A ∧ A ≤ 2 * π := by rw [hA]; split_ifs <;> constructor <;> assumption
  have hB0 : 0 < B ∧ B ≤ 2 * π := by rw [hB]; split_ifs <;> constructor <;> assumption
  constructor
  · rintro ⟨t, d', n, m, ht, htd, hd0, hd1, hb, hx⟩
    have hdd : d' = d := turn_unique hd0 hd1 d1 d2 (nd - n) (by push_cast; linarith)
    have ht0 : 0 < t := by
      rcases ht.lt_or_eq with h | h
      · exact h
      · exact absurd (hc.at_eq_iff.2 ⟨m, by rw [hx, ← h]; ring⟩) hxa
    have htd0 : t < d := by
      rcases htd.lt_or_eq with h | h
      · linarith
      · exact absurd (hc.at_eq_iff.2 ⟨m - n, by rw [hx, hb, h]; push_cast; ring⟩) hxb
    have h1 : A = t := turn_unique hA0.1 hA0.2 ht0 (by linarith) (m - nx) (by push_cast; linarith)
    have h2 : B = d - t := turn_unique hB0.1 hB0.2 (by linarith) (by linarith) (nd - nb - m) (by push_cast; linarith)
    linarith
  · intro h
    exact ⟨A, d, nd, nx, hA0.1.le, by linarith, d1, d2, hnd, hnx⟩

/-- **C69.** `point_belongs` for a point of the circle: true exactly when the point is on the arc or within the tolerance of one of its
extremities. -/
theorem C69_point_belongs {c : Circle2} (hc : c.Good) (a b x : ℝ) (arc : Arc2) (h : Arc2.make c (c.at a) (c.at b) = .ok arc) {tol : ℝ}
    (htol : 0 ≤ tol) :
    ∃ r, arc.pointBelongs (c.at x) tol = .ok r ∧ (r = true ↔ OnArc a b x ∨
      V2.pointDistance (c.at x) (c.at a) ≤ tol ∨ V2.pointDistance (c.at x) (c.at b) ≤ tol) := by
  have hp := pi_pos
  have hr := hc.pos
  obtain ⟨a', e', h'⟩ := make_at hc a b
  rw [h'] at h
  obtain rfl := Except.ok.inj h
  unfold Arc2.pointBelongs
  dsimp only
  rw [hc.dist_center, if_neg (by unfold mathIsCloseRel; rw [sub_self, abs_zero]; simp)]
  by_cases hcl : isClose2 (c.at x) (c.at a) tol ∨ isClose2 (c.at x) (c.at b) tol
  · rw [if_pos hcl]
    rw [isClose2_iff htol, isClose2_iff htol] at hcl
    exact ⟨true, rfl, by simp only [true_iff]; exact Or.inr hcl⟩
  · rw [if_neg hcl]
    rw [isClose2_iff htol, isClose2_iff htol] at hcl
    obtain ⟨arc', harc, ho, hs, he⟩ := clockwiseArc hc a b a' e'
    unfold Arc2.clockwise
    rw [harc]
    refine ⟨_, rfl, ?_⟩
    classical
    rw [decide_eq_true_iff, ho, hs, he, or_iff_left hcl]
    have dz : ∀ p : V2 ℝ, V2.pointDistance p p ≤ tol := by
      intro p
      unfold V2.pointDistance V2.norm
      simpa using htol
    have hiff := onArc_iff (a := a) (b := b) (x := x) hc (fun e => hcl (Or.inl (by rw [e]; exact dz _)))
      (fun e => hcl (Or.inr (by rw [e]; exact dz _)))
    dsimp only at hiff
    rw [hiff]
    have h3 := clockwise_three hc a b x
    dsimp only at h3
    obtain ⟨d1, d2, -, hsum, s1, -, e1, -, -, -⟩ := h3
    unfold mathIsCloseRel
    rcases hsum with hsum | hsum
    · rw [hsum, sub_self, abs_zero]
      exact ⟨fun _ => rfl, fun _ => by positivity⟩
    · rw [hsum]
      constructor
      · intro hle
        exfalso
        have key : ∀ d : ℝ, 0 < d → d ≤ 2 * π → |d - (d + 2 * π)| ≤ 1 / 100 * max |d| |d + 2 * π| → False := by
          intro d k1 k2 k3
          rw [abs_of_pos k1, abs_of_pos (show 0 < d + 2 * π by linarith), max_eq_right (by linarith), abs_of_neg (by linarith)] at k3
          linarith
        exact key _ d1 d2 hle
      · intro e
        linarith

/-- **C69.** A point which is not at a distance of the centre within half a percent of the radius is refused. -/
theorem C69_point_belongs_far (arc : Arc2) (p : V2 ℝ) (tol : ℝ)
    (h : 5 / 1000 * max |V2.pointDistance p arc.circle.frame.origin| |arc.circle.radius| <
      |V2.pointDistance p arc.circle.frame.origin - arc.circle.radius|) : arc.pointBelongs p tol = .ok false := by
  unfold Arc2.pointBelongs
  rw [if_pos (by unfold mathIsCloseRel; rw [not_le]; exact h)]

/-- **C69.** The abscissa of the point at abscissa `s` is `s`, for every `s` between zero and the length, up to the tolerance near the
extremities (where it is `0` or the length). -/
theorem C69_abscissa {c : Circle2} (hc : c.Good) (a b : ℝ) (ha : Clear a) (hb : Clear b) (arc : Arc2)
    (h : Arc2.make c (c.at a) (c.at b) = .ok arc) {tol : ℝ} (htol : 0 < tol) (s : ℝ) (hs0 : 0 ≤ s) (hs1 : s ≤ arc.length) :
    (V2.pointDistance (arc.pointAtAbscissa s) arc.start < tol ∧ arc.abscissa (arc.pointAtAbscissa s) tol = .ok 0) ∨
    (V2.pointDistance (arc.pointAtAbscissa s) arc.fin < tol ∧ arc.abscissa (arc.pointAtAbscissa s) tol = .ok arc.length) ∨
    arc.abscissa (arc.pointAtAbscissa s) tol = .ok s := by
  have hp := pi_pos
  have hr := hc.pos
  have hlen := (C57_angle_range2 _ _ _ _ h).2.2
  rw [make_clear hc ha hb] at h
  obtain rfl := Except.ok.inj h
  rw [C57_point_at_abscissa hc a _ rfl rfl]
  set x := a + s / c.radius with hx
  have hang : Arc2.angle ⟨c, c.at a, c.at b, a, endAfter a b⟩ = endAfter a b - a := rfl
  obtain ⟨f1, f2, k, hk⟩ := endAfter_range ha.1 ha.lt hb.1 hb.lt
  unfold Arc2.abscissa
  dsimp only
  rw [hc.dist_center, if_neg (by unfold mathIsClose; rw [sub_self, abs_zero]; simp [htol.le])]
  by_cases h1 : V2.pointDistance (c.at x) (c.at a) < tol
  · left; rw [if_pos h1]; exact ⟨h1, rfl⟩
  by_cases h2 : V2.pointDistance (c.at x) (c.at b) < tol
  · right; left; rw [if_neg h1, if_pos h2]; exact ⟨h2, rfl⟩
  right; right
  rw [if_neg h1, if_neg h2]
  obtain ⟨arc', harc, ho, hst, he⟩ := clockwiseArc hc a b a (endAfter a b)
  unfold Arc2.clockwise
  rw [harc]
  have dz : ∀ p : V2 ℝ, V2.pointDistance p p < tol := by
    intro p
    unfold V2.pointDistance V2.norm
    simpa using htol
  have hne1 : c.at x ≠ c.at a := fun e => h1 (by rw [e]; exact dz _)
  have hne2 : c.at x ≠ c.at b := fun e => h2 (by rw [e]; exact dz _)
  have hsr : s / c.radius ≤ endAfter a b - a := by
    rw [div_le_iff₀ hr]; rw [hlen, hang] at hs1; linarith
  have hon : OnArc a b x := ⟨s / c.radius, endAfter a b - a, -k, 0, by positivity, hsr, f1, f2, by push_cast; linarith, by rw [hx]; push_cast; ring⟩
  have hsum := (onArc_iff hc hne1 hne2).1 hon
  obtain ⟨d1, d2, ⟨nd, hnd⟩, -, s1, s2, e1, e2, ⟨nx, hnx⟩, -⟩ := clockwise_three hc a b x
  classical
  change (if mathIsClose _ _ _ then _ else _) = _
  rw [ho, hst, he, hsum, if_pos (by unfold mathIsClose; rw [sub_self, abs_zero]; exact le_max_of_le_right htol.le)]
  -- the value
  set d := clockwiseAngle (c.at (if c.sign = 1 then b else a) - c.frame.origin) (c.at (if c.sign = 1 then a else b) - c.frame.origin)
  set ps := clockwiseAngle (c.at (if c.sign = 1 then b else a) - c.frame.origin) (c.at x - c.frame.origin)
  set pe := clockwiseAngle (c.at x - c.frame.origin) (c.at (if c.sign = 1 then a else b) - c.frame.origin)
  have hd : endAfter a b - a = d := turn_unique f1 f2 d1 d2 (k + nd) (by push_cast; linarith)
  have hspos : 0 < s / c.radius := by
    apply div_pos _ hr
    rcases hs0.lt_or_eq with h | h
    · exact h
    · exfalso; apply hne1; rw [hx, ← h, zero_div, add_zero]
  by_cases ht : c.IsTrigo
  · rw [if_pos ht]
    have h1 := hc.trigo_iff.1 ht
    rw [if_pos h1] at hnx
    have hpe : pe = s / c.radius := turn_unique e1 e2 hspos (by linarith) (-nx) (by rw [hx] at hnx; push_cast; linarith)
    change Except.ok _ = _
    congr 1
    rw [hlen, hang, hd]
    have : ps = d - s / c.radius := by linarith
    rw [this]
    field_simp
    ring
  · rw [if_neg ht]
    have h1 : c.sign ≠ 1 := fun h => ht (hc.trigo_iff.2 h)
    rw [if_neg h1] at hnx
    have hps : ps = s / c.radius := turn_unique s1 s2 hspos (by linarith) (-nx) (by rw [hx] at hnx; push_cast; linarith)
    change Except.ok _ = _
    congr 1
    rw [hps]
    field_simp

/-- **C69.** On a whole circle of the plane, the abscissa of the point at abscissa `s` is `s` (angles in the tolerance band excepted). -/
theorem C69_circle_abscissa {c : Circle2} (hc : c.Good) {tol : ℝ} (htol : 0 ≤ tol) (s : ℝ) (hs : Clear (s / c.radius)) :
    c.abscissa (c.pointAtAbscissa s) tol = .ok s := by
  have hr := hc.pos
  have hpt : c.pointAtAbscissa s = c.at (s / c.radius) := by
    have h0 : c.frame.origin + V2.smul c.radius c.frame.basis.u = c.at 0 := by
      unfold Circle2.at
      ext <;> simp [mul_comm]
    unfold Circle2.pointAtAbscissa
    dsimp only
    rw [h0, hc.rotation_at]
    congr 1
    change 0 + c.sign * (c.sign * s / c.radius) = _
    rcases hc.sign_spec.1 with e | e <;> rw [e] <;> ring
  have hsym : V2.pointDistance c.frame.origin (c.at (s / c.radius)) = c.radius := by
    refine Eq.trans ?_ (hc.dist_center (s / c.radius))
    unfold V2.pointDistance V2.norm
    congr 1
    simp only [V2.sub_x, V2.sub_y]
    ring
  unfold Circle2.abscissa
  rw [hpt, hsym, if_neg (by unfold mathIsClose; rw [sub_self, abs_zero]; simp [htol])]
  have := hc.pointAngle_clear hs
  unfold Circle2.pointAngle at this
  rcases hl : c.frame.globalToLocal (c.at (s / c.radius)) with e | l
  · rw [hl] at this; cases this
  · rw [hl] at this
    change (if c.radius = 0 then _ else _) = _ at this
    change (if c.radius = 0 then _ else _) = _
    rw [if_neg hr.ne'] at this ⊢
    have := Except.ok.inj this
    change Except.ok (c.radius * |_|) = _
    rw [this, abs_of_nonneg hs.1]
    congr 1
    field_simp

/-- Not vacuous: a quarter of the unit circle and a point of it. -/
example : OnArc 0 (π / 2) (π / 4) ∧ ¬OnArc 0 (π / 2) π := by
  have hp := pi_pos
  constructor
  · exact ⟨π / 4, π / 2, 0, 0, by positivity, by linarith, by positivity, by linarith, by push_cast; ring, by push_cast; ring⟩
  · rintro ⟨t, d, n, m, t0, td, d0, d1, hb, hx⟩
    have : d = π / 2 := turn_unique d0 d1 (by positivity) (by linarith) (-n) (by push_cast; linarith)
    have ht : t = π + (-m : ℤ) * (2 * π) := by push_cast; linarith
    have l1 : (m : ℝ) < 1 := by by_contra hc; push Not at hc; push_cast at ht; nlinarith
    have l2 : (0 : ℝ) < m := by by_contra hc; push Not at hc; push_cast at ht; nlinarith
    have l1' : m < 1 := by exact_mod_cast l1
    have l2' : 0 < m := by exact_mod_cast l2
    omega

/-! ## C70: three points -/

/-- **C70.** The circle through three points of the plane: found if and only if they are not aligned, and then at the same distance,
the radius, of the three. -/
theorem C70_circle_from_3_points (p1 p2 p3 : V2 ℝ) :
    (circleFrom3Points p1 p2 p3 = none ↔ V2.cross (p2 - p1) (p3 - p1) = 0) ∧
    ∀ c ∈ circleFrom3Points p1 p2 p3, c.Good ∧ V2.pointDistance p1 c.frame.origin = c.radius ∧
      V2.pointDistance p2 c.frame.origin = c.radius ∧ V2.pointDistance p3 c.frame.origin = c.radius := by
  unfold circleFrom3Points circleCenter
  dsimp only
  have hdet : M22.det ⟨2 * (p1.x - p2.x), 2 * (p1.y - p2.y), 2 * (p1.x - p3.x), 2 * (p1.y - p3.y)⟩ = 4 * V2.cross (p2 - p1) (p3 - p1) := by
    unfold M22.det V2.cross
    simp only [V2.sub_x, V2.sub_y]
    ring
  rw [hdet]
  by_cases hd : 4 * V2.cross (p2 - p1) (p3 - p1) = 0
  · rw [if_pos hd]
    refine ⟨by simp; linarith, by simp⟩
  · rw [if_neg hd]
    have hd' : V2.cross (p2 - p1) (p3 - p1) ≠ 0 := fun e => hd (by rw [e]; ring)
    refine ⟨by simpa using hd', ?_⟩
    rintro c hcm
    obtain rfl := Option.some.inj hcm
    dsimp only
    set D := 4 * V2.cross (p2 - p1) (p3 - p1) with hD
    set cx := (2 * (p1.y - p3.y) * -(p2.x ^ 2 + p2.y ^ 2 - p1.x ^ 2 - p1.y ^ 2) -
      2 * (p1.y - p2.y) * -(p3.x ^ 2 + p3.y ^ 2 - p1.x ^ 2 - p1.y ^ 2)) / D with hcx
    set cy := (2 * (p1.x - p2.x) * -(p3.x ^ 2 + p3.y ^ 2 - p1.x ^ 2 - p1.y ^ 2) -
      2 * (p1.x - p3.x) * -(p2.x ^ 2 + p2.y ^ 2 - p1.x ^ 2 - p1.y ^ 2)) / D with hcy
    have hDe : D = 4 * ((p2.x - p1.x) * (p3.y - p1.y) - (p2.y - p1.y) * (p3.x - p1.x)) := rfl
    have ex : cx * D = 2 * (p1.y - p3.y) * -(p2.x ^ 2 + p2.y ^ 2 - p1.x ^ 2 - p1.y ^ 2) -
      2 * (p1.y - p2.y) * -(p3.x ^ 2 + p3.y ^ 2 - p1.x ^ 2 - p1.y ^ 2) := div_mul_cancel₀ _ hd
    have ey : cy * D = 2 * (p1.x - p2.x) * -(p3.x ^ 2 + p3.y ^ 2 - p1.x ^ 2 - p1.y ^ 2) -
      2 * (p1.x - p3.x) * -(p2.x ^ 2 + p2.y ^ 2 - p1.x ^ 2 - p1.y ^ 2) := div_mul_cancel₀ _ hd
    clear_value cx cy
    have d12 : V2.pointDistance p2 ⟨cx, cy⟩ = V2.pointDistance p1 ⟨cx, cy⟩ := by
      unfold V2.pointDistance V2.norm
      congr 1
      simp only [V2.sub_x, V2.sub_y]
      apply mul_right_cancel₀ hd
      linear_combination 2 * (p1.x - p2.x) * ex + 2 * (p1.y - p2.y) * ey - (p2.x ^ 2 + p2.y ^ 2 - p1.x ^ 2 - p1.y ^ 2) * hDe * (-1)
    have d13 : V2.pointDistance p3 ⟨cx, cy⟩ = V2.pointDistance p1 ⟨cx, cy⟩ := by
      unfold V2.pointDistance V2.norm
      congr 1
      simp only [V2.sub_x, V2.sub_y]
      apply mul_right_cancel₀ hd
      linear_combination 2 * (p1.x - p3.x) * ex + 2 * (p1.y - p3.y) * ey - (p3.x ^ 2 + p3.y ^ 2 - p1.x ^ 2 - p1.y ^ 2) * hDe * (-1)
    refine ⟨⟨by norm_num, by norm_num, by norm_num, ?_⟩, rfl, d12, d13⟩
    dsimp only
    rcases (pointDistance_nonneg p1 ⟨cx, cy⟩).lt_or_eq with h | h
    · exact h
    · exfalso
      have z : ∀ p : V2 ℝ, V2.pointDistance p ⟨cx, cy⟩ = 0 → p = ⟨cx, cy⟩ := by
        intro p hp
        by_contra hne
        have : p - ⟨cx, cy⟩ ≠ ⟨0, 0⟩ := by
          intro e
          apply hne
          have e1 := congrArg V2.x e
          have e2 := congrArg V2.y e
          simp only [V2.sub_x, V2.sub_y] at e1 e2
          ext <;> dsimp only <;> linarith
        have := norm2_pos this
        unfold V2.pointDistance at hp
        linarith
      have e1 := z _ h.symm
      have e2 := z p2 (by rw [d12, h])
      apply hd'
      rw [e1, e2]
      unfold V2.cross
      simp

/-- **C70.** `Arc2D.from_3_points` of three points not aligned gives an arc starting at the first, ending at the third, on which the second
is: it is a point of the arc (or within `1e-6` of an extremity). -/
theorem C70_arc_from_3_points (p1 p2 p3 : V2 ℝ) (h : V2.cross (p2 - p1) (p3 - p1) ≠ 0) :
    ∃ arc c, Arc2.from3Points p1 p2 p3 = .ok arc ∧ arc.circle = c ∧ c.Good ∧ arc.start = p1 ∧ arc.fin = p3 ∧
      ∃ a b x, p1 = c.at a ∧ p3 = c.at b ∧ p2 = c.at x ∧
        (OnArc a b x ∨ V2.pointDistance p2 p1 ≤ 1 / 10 ^ 6 ∨ V2.pointDistance p2 p3 ≤ 1 / 10 ^ 6) := by
  have hp := pi_pos
  obtain ⟨hn, hs⟩ := C70_circle_from_3_points p1 p2 p3
  rcases hcirc : circleFrom3Points p1 p2 p3 with _ | c
  · exact absurd (hn.1 hcirc) h
  obtain ⟨hc, h1, h2, h3⟩ := hs c hcirc
  obtain ⟨a, a0, a1, rfl⟩ := hc.exists_at h1
  obtain ⟨x, x0, x1, rfl⟩ := hc.exists_at h2
  obtain ⟨b, b0, b1, rfl⟩ := hc.exists_at h3
  obtain ⟨a', e', hmk⟩ := make_at hc a b
  obtain ⟨r, hr, hriff⟩ := C69_point_belongs hc a b x _ hmk (tol := 1 / 10 ^ 6) (by norm_num)
  unfold Arc2.from3Points
  rw [hcirc]
  dsimp only
  rw [hmk]
  change ∃ arc c_1, (Arc2.pointBelongs _ _ >>= fun b => _) = .ok arc ∧ _
  rw [hr]
  cases r with
  | true =>
    refine ⟨_, c, rfl, rfl, hc, rfl, rfl, a, b, x, rfl, rfl, rfl, hriff.1 rfl⟩
  | false =>
    obtain ⟨a'', e'', hmk'⟩ := make_at hc.reverse (-a) (-b)
    rw [reverse_at, reverse_at] at hmk'
    refine ⟨_, c.reverse, hmk', rfl, hc.reverse, rfl, rfl, -a, -b, -x, (reverse_at c a).symm, (reverse_at c b).symm, (reverse_at c x).symm, Or.inl ?_⟩
    have hnot : ¬OnArc a b x := by
      intro ho
      have := hriff.2 (Or.inl ho)
      exact absurd this (by simp)
    -- the point is strictly on the other side
    obtain ⟨d, n, hd0, hd1, hb⟩ : ∃ d : ℝ, ∃ n : ℤ, 0 < d ∧ d ≤ 2 * π ∧ b = a + d + n * (2 * π) := by
      rcases lt_or_ge a b with hlt | hge
      · exact ⟨b - a, 0, by linarith, by linarith, by push_cast; ring⟩
      · exact ⟨b - a + 2 * π, -1, by linarith, by linarith, by push_cast; ring⟩
    obtain ⟨t, m, ht0, ht1, hx⟩ : ∃ t : ℝ, ∃ m : ℤ, 0 ≤ t ∧ t < 2 * π ∧ x = a + t + m * (2 * π) := by
      rcases le_or_gt a x with hlt | hge
      · exact ⟨x - a, 0, by linarith, by linarith, by push_cast; ring⟩
      · exact ⟨x - a + 2 * π, -1, by linarith, by linarith, by push_cast; ring⟩
    have htd : d < t := by
      by_contra hcon
      push Not at hcon
      exact hnot ⟨t, d, n, m, ht0, hcon, hd0, hd1, hb, hx⟩
    refine ⟨2 * π - t, 2 * π - d, -n - 1, -m - 1, by linarith, by linarith, by linarith, by linarith, ?_, ?_⟩
    · rw [hb]; push_cast; ring
    · rw [hx]; push_cast; ring

example : V2.cross ((⟨0, 1⟩ : V2 ℝ) - ⟨1, 0⟩) ((⟨-1, 0⟩ : V2 ℝ) - ⟨1, 0⟩) ≠ 0 := by
  unfold V2.cross
  simp only [V2.sub_x, V2.sub_y]
  norm_num

end Volmdlr.Arc
