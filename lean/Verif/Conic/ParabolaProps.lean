import Verif.Conic.Model
import Verif.Arc.Props
import Verif.Intersect.LineProps
import Mathlib.Analysis.Calculus.Deriv.Pow
import Mathlib.Analysis.Calculus.Deriv.Add
import Mathlib.Analysis.Calculus.Deriv.Mul

/-!
# Theorems about `Parabola2D` (C91)
-/

namespace Volmdlr.Conic

open Volmdlr.Angle Volmdlr.Arc Volmdlr.Intersect

/-! ## Specification -/

/-- An orthonormal frame of the plane, direct or not. -/
structure Ortho2 (f : Frame2 ℝ) : Prop where
  uu : V2.dot f.basis.u f.basis.u = 1
  vv : V2.dot f.basis.v f.basis.v = 1
  uv : V2.dot f.basis.u f.basis.v = 0

/-- The abscissa of a point along the first axis of a frame. -/
def alongU (f : Frame2 ℝ) (p : V2 ℝ) : ℝ := V2.dot (p - f.origin) f.basis.u
/-- The ordinate of a point along the second axis of a frame. -/
def alongV (f : Frame2 ℝ) (p : V2 ℝ) : ℝ := V2.dot (p - f.origin) f.basis.v

/-- A point of the parabola: its distance to the focus `origin + F v` is its distance to the directrix, the line orthogonal to `v` at the distance
`F` behind the origin. -/
def OnParabola (P : Parabola2) (p : V2 ℝ) : Prop :=
  V2.pointDistance p (P.frame.origin + V2.smul P.focal P.frame.basis.v) = |alongV P.frame p + P.focal|

/-! ## Frames -/

lemma Ortho2.good {f : Frame2 ℝ} (h : Ortho2 f) : (⟨f, 1⟩ : Circle2).Good := by
  obtain ⟨h1, h2, h3⟩ := h
  unfold V2.dot at h1 h2 h3
  exact ⟨by linarith [h1], by linarith [h2], h3, by norm_num⟩

lemma Ortho2.g2l {f : Frame2 ℝ} (h : Ortho2 f) (p : V2 ℝ) : f.globalToLocal p = .ok ⟨alongU f p, alongV f p⟩ := h.good.globalToLocal p

lemma l2g_x (f : Frame2 ℝ) (q : V2 ℝ) : (f.localToGlobal q).x = f.origin.x + q.x * f.basis.u.x + q.y * f.basis.v.x := by
  change f.basis.u.x * q.x + f.basis.v.x * q.y + f.origin.x = _
  ring

lemma l2g_y (f : Frame2 ℝ) (q : V2 ℝ) : (f.localToGlobal q).y = f.origin.y + q.x * f.basis.u.y + q.y * f.basis.v.y := by
  change f.basis.u.y * q.x + f.basis.v.y * q.y + f.origin.y = _
  ring

lemma Ortho2.alongU_l2g {f : Frame2 ℝ} (h : Ortho2 f) (q : V2 ℝ) : alongU f (f.localToGlobal q) = q.x := by
  obtain ⟨h1, h2, h3⟩ := h
  unfold V2.dot at h1 h2 h3
  change ((f.localToGlobal q).x - f.origin.x) * f.basis.u.x + ((f.localToGlobal q).y - f.origin.y) * f.basis.u.y = q.x
  rw [l2g_x, l2g_y]
  linear_combination q.x * h1 + q.y * h3

lemma Ortho2.alongV_l2g {f : Frame2 ℝ} (h : Ortho2 f) (q : V2 ℝ) : alongV f (f.localToGlobal q) = q.y := by
  obtain ⟨h1, h2, h3⟩ := h
  unfold V2.dot at h1 h2 h3
  change ((f.localToGlobal q).x - f.origin.x) * f.basis.v.x + ((f.localToGlobal q).y - f.origin.y) * f.basis.v.y = q.y
  rw [l2g_x, l2g_y]
  linear_combination q.y * h2 + q.x * h3

lemma Ortho2.l2g_along {f : Frame2 ℝ} (h : Ortho2 f) (p : V2 ℝ) : f.localToGlobal ⟨alongU f p, alongV f p⟩ = p := by
  have hd : 1 / 10 ^ 10 < |V2.cross f.basis.u f.basis.v| := by
    have h2 : V2.cross f.basis.u f.basis.v ^ 2 = 1 := by
      obtain ⟨h1, h2, h3⟩ := h
      unfold V2.dot at h1 h2 h3
      unfold V2.cross
      linear_combination (f.basis.v.x * f.basis.v.x + f.basis.v.y * f.basis.v.y) * h1 + h2 - (f.basis.u.x * f.basis.v.x + f.basis.u.y * f.basis.v.y) * h3
    have h3 : |V2.cross f.basis.u f.basis.v| = 1 := by
      rw [← sq_abs] at h2
      nlinarith [abs_nonneg (V2.cross f.basis.u f.basis.v)]
    rw [h3]; norm_num
  obtain ⟨q, hq, hq'⟩ := ((C03_frame2d_roundtrip f p).1 hd).1
  rw [h.g2l] at hq
  injection hq with hq
  rw [hq, hq']

lemma Ortho2.ext {f : Frame2 ℝ} (h : Ortho2 f) {p q : V2 ℝ} (h1 : alongU f p = alongU f q) (h2 : alongV f p = alongV f q) : p = q := by
  rw [← h.l2g_along p, ← h.l2g_along q, h1, h2]

lemma Ortho2.dist_sq {f : Frame2 ℝ} (h : Ortho2 f) (p q : V2 ℝ) :
    V2.pointDistance p q ^ 2 = (alongU f p - alongU f q) ^ 2 + (alongV f p - alongV f q) ^ 2 := by
  rw [← h.l2g_along p, ← h.l2g_along q]
  rw [h.alongU_l2g, h.alongV_l2g, h.alongU_l2g, h.alongV_l2g]
  obtain ⟨h1, h2, h3⟩ := h
  unfold V2.dot at h1 h2 h3
  generalize alongU f p = a; generalize alongV f p = b; generalize alongU f q = c; generalize alongV f q = d
  unfold V2.pointDistance V2.norm
  rw [Real.sq_sqrt (add_nonneg (mul_self_nonneg _) (mul_self_nonneg _))]
  simp only [V2.sub_x, V2.sub_y, l2g_x, l2g_y]
  linear_combination (a - c) ^ 2 * h1 + (b - d) ^ 2 * h2 + 2 * (a - c) * (b - d) * h3

lemma along_affine_u (f : Frame2 ℝ) (a b p : V2 ℝ) (t : ℝ) (h1 : p.x = a.x + t * (b.x - a.x)) (h2 : p.y = a.y + t * (b.y - a.y)) :
    alongU f p = alongU f a + t * (alongU f b - alongU f a) := by
  simp only [alongU, V2.dot, V2.sub_x, V2.sub_y, h1, h2]; ring

lemma along_affine_v (f : Frame2 ℝ) (a b p : V2 ℝ) (t : ℝ) (h1 : p.x = a.x + t * (b.x - a.x)) (h2 : p.y = a.y + t * (b.y - a.y)) :
    alongV f p = alongV f a + t * (alongV f b - alongV f a) := by
  simp only [alongV, V2.dot, V2.sub_x, V2.sub_y, h1, h2]; ring

/-- A point is on a line when its coordinates in an orthonormal frame are. -/
lemma Ortho2.onLine_iff {f : Frame2 ℝ} (h : Ortho2 f) (a b p : V2 ℝ) :
    OnLine2 a b p ↔ ∃ t, alongU f p = alongU f a + t * (alongU f b - alongU f a) ∧ alongV f p = alongV f a + t * (alongV f b - alongV f a) := by
  constructor
  · rintro ⟨t, h1, h2⟩
    exact ⟨t, along_affine_u f a b p t h1 h2, along_affine_v f a b p t h1 h2⟩
  · rintro ⟨t, h1, h2⟩
    have : p = ⟨a.x + t * (b.x - a.x), a.y + t * (b.y - a.y)⟩ :=
      h.ext (by rw [h1]; exact (along_affine_u f a b ⟨a.x + t * (b.x - a.x), a.y + t * (b.y - a.y)⟩ t rfl rfl).symm)
        (by rw [h2]; exact (along_affine_v f a b ⟨a.x + t * (b.x - a.x), a.y + t * (b.y - a.y)⟩ t rfl rfl).symm)
    rw [this]
    exact ⟨t, rfl, rfl⟩

lemma toLocal_eq {f : Frame2 ℝ} (h : Ortho2 f) (l : Line2) :
    toLocal f l = .ok ⟨⟨alongU f l.point1, alongV f l.point1⟩, ⟨alongU f l.point2, alongV f l.point2⟩⟩ := by
  unfold toLocal
  rw [h.g2l, h.g2l]
  rfl

/-- The points of a line that is not parallel to the second axis: slope and intercept. -/
lemma onLine_slope {f : Frame2 ℝ} (h : Ortho2 f) (l : Line2) (hn : alongU f l.point1 ≠ alongU f l.point2) :
    ∃ m c, slopeIntercept ⟨⟨alongU f l.point1, alongV f l.point1⟩, ⟨alongU f l.point2, alongV f l.point2⟩⟩ = some (m, c) ∧
      m = (alongV f l.point2 - alongV f l.point1) / (alongU f l.point2 - alongU f l.point1) ∧
      ∀ p, OnLine2 l.point1 l.point2 p ↔ alongV f p = m * alongU f p + c := by
  have hd : alongU f l.point2 - alongU f l.point1 ≠ 0 := fun e => hn (by linarith)
  refine ⟨_, _, if_neg hn, rfl, fun p => ?_⟩
  rw [h.onLine_iff]
  dsimp only
  constructor
  · rintro ⟨t, h1, h2⟩
    rw [h1, h2]; field_simp; ring
  · intro hp
    refine ⟨(alongU f p - alongU f l.point1) / (alongU f l.point2 - alongU f l.point1), by field_simp; ring, ?_⟩
    rw [hp]; field_simp; ring

/-! ## The equation of the parabola -/

lemma focus_along {P : Parabola2} (h : Ortho2 P.frame) :
    alongU P.frame (P.frame.origin + V2.smul P.focal P.frame.basis.v) = 0 ∧ alongV P.frame (P.frame.origin + V2.smul P.focal P.frame.basis.v) = P.focal := by
  obtain ⟨h1, h2, h3⟩ := h
  unfold V2.dot at h1 h2 h3
  constructor
  · change (P.frame.origin.x + P.frame.basis.v.x * P.focal - P.frame.origin.x) * P.frame.basis.u.x + (P.frame.origin.y + P.frame.basis.v.y * P.focal - P.frame.origin.y) * P.frame.basis.u.y = 0
    linear_combination P.focal * h3
  · change (P.frame.origin.x + P.frame.basis.v.x * P.focal - P.frame.origin.x) * P.frame.basis.v.x + (P.frame.origin.y + P.frame.basis.v.y * P.focal - P.frame.origin.y) * P.frame.basis.v.y = P.focal
    linear_combination P.focal * h2

lemma onParabola_iff {P : Parabola2} (h : Ortho2 P.frame) (hF : 0 < P.focal) (p : V2 ℝ) :
    OnParabola P p ↔ alongV P.frame p = P.a * alongU P.frame p ^ 2 := by
  unfold OnParabola
  have h0 : 0 ≤ V2.pointDistance p (P.frame.origin + V2.smul P.focal P.frame.basis.v) := Real.sqrt_nonneg _
  rw [← sq_eq_sq₀ h0 (abs_nonneg _), sq_abs, h.dist_sq, (focus_along h).1, (focus_along h).2]
  unfold Parabola2.a
  generalize alongU P.frame p = x; generalize alongV P.frame p = y
  have := hF.ne'
  constructor
  · intro e; field_simp; linear_combination -e
  · intro e; rw [e]; field_simp; ring

lemma a_pos {P : Parabola2} (hF : 0 < P.focal) : 0 < P.a := by unfold Parabola2.a; positivity

/-! ## Points -/

/-- C91: `get_points` of two bounds (not both zero) gives the asked number of points of the parabola, at equally spaced abscissas between the
bounds. -/
theorem C91_points {P : Parabola2} (h : Ortho2 P.frame) (hF : 0 < P.focal) (lo hi : ℝ) (hb : lo ≠ 0 ∨ hi ≠ 0) (n : ℕ) :
    ∃ ps, P.getPoints (some lo) (some hi) n = .ok ps ∧ ps.length = n ∧
      ∀ i (hi' : i < ps.length), OnParabola P ps[i] ∧ alongU P.frame ps[i] = lo + i * ((hi - lo) / (n - 1)) := by
  unfold Parabola2.getPoints bounds
  rw [if_neg (by simp only [reduceCtorEq, Option.some.injEq, false_or]; tauto)]
  refine ⟨_, rfl, by simp [npLinspace], fun i hi' => ?_⟩
  simp only [npLinspace, List.getElem_map, List.getElem_range]
  rw [h.alongU_l2g]
  refine ⟨?_, rfl⟩
  rw [onParabola_iff h hF, h.alongU_l2g, h.alongV_l2g]
  dsimp only
  unfold Parabola2.getY Parabola2.a
  generalize lo + (i : ℝ) * ((hi - lo) / ((n : ℝ) - 1)) = x
  field_simp
  ring

/-- C91: the attribute `focus`: the points of `get_points` are as far from it as from the directrix, the line orthogonal to `v` at the distance
`F` behind the vertex; and it is at the distance `F` from the vertex. -/
theorem C91_focus {P : Parabola2} (h : Ortho2 P.frame) (hF : 0 < P.focal) (lo hi : ℝ) (hb : lo ≠ 0 ∨ hi ≠ 0) (n : ℕ) (ps : List (V2 ℝ))
    (hp : P.getPoints (some lo) (some hi) n = .ok ps) :
    V2.pointDistance P.focus P.frame.origin = P.focal ∧
      ∀ p ∈ ps, V2.pointDistance p P.focus = |V2.dot (p - P.frame.origin) P.frame.basis.v + P.focal| := by
  constructor
  · have h0 : 0 ≤ V2.pointDistance P.focus P.frame.origin := Real.sqrt_nonneg _
    refine (sq_eq_sq₀ h0 hF.le).1 ?_
    unfold Parabola2.focus
    rw [h.dist_sq, (focus_along h).1, (focus_along h).2, alongU, alongV]
    simp [V2.dot]
  · obtain ⟨qs, e, -, k⟩ := C91_points h hF lo hi hb n
    rw [hp] at e
    cases e
    intro p hp
    obtain ⟨i, hi', rfl⟩ := List.getElem_of_mem hp
    exact (k i hi').1

/-- C91: without bounds the abscissas go from `-5F` to `5F`. -/
theorem C91_points_default {P : Parabola2} (h : Ortho2 P.frame) (hF : 0 < P.focal) (n : ℕ) :
    ∃ ps, P.getPoints none none n = .ok ps ∧ ps.length = n ∧
      ∀ i (hi' : i < ps.length), OnParabola P ps[i] ∧ |alongU P.frame ps[i]| ≤ 5 * P.focal := by
  unfold Parabola2.getPoints bounds
  rw [if_pos ⟨Or.inl rfl, Or.inl rfl⟩]
  refine ⟨_, rfl, by simp [npLinspace], fun i hi' => ?_⟩
  have hin : i < n := by simpa [npLinspace] using hi'
  simp only [npLinspace, List.getElem_map, List.getElem_range]
  rw [h.alongU_l2g]
  constructor
  · rw [onParabola_iff h hF, h.alongU_l2g, h.alongV_l2g]
    dsimp only
    unfold Parabola2.getY Parabola2.a
    generalize -(P.focal * 5) + (i : ℝ) * ((P.focal * 5 - -(P.focal * 5)) / ((n : ℝ) - 1)) = x
    field_simp
    ring
  · rcases Nat.eq_zero_or_pos i with rfl | hi0
    · rw [abs_le]; constructor <;> norm_num <;> linarith
    · have hn : (0 : ℝ) < n - 1 := by
        have : (2 : ℝ) ≤ n := by exact_mod_cast (by omega : 2 ≤ n)
        linarith
      have hle : (i : ℝ) ≤ n - 1 := by
        have : (i + 1 : ℝ) ≤ n := by exact_mod_cast hin
        linarith
      have key : -(P.focal * 5) + (i : ℝ) * ((P.focal * 5 - -(P.focal * 5)) / ((n : ℝ) - 1)) = P.focal * 5 * (2 * (i / (n - 1)) - 1) := by
        field_simp; ring
      rw [key, abs_mul, abs_of_pos (by positivity : 0 < P.focal * 5), mul_comm 5]
      apply mul_le_of_le_one_right (by positivity)
      have h1 : (i : ℝ) / (n - 1) ≤ 1 := (div_le_one hn).2 hle
      have h2 : 0 ≤ (i : ℝ) / (n - 1) := by positivity
      rw [abs_le]; constructor <;> linarith

/-- C91: `point_belongs` accepts every point of the parabola, and a point it accepts is near a point of the parabola. -/
theorem C91_point_belongs {P : Parabola2} (h : Ortho2 P.frame) (hF : 0 < P.focal) (p : V2 ℝ) (tol : ℝ) :
    ∃ r, P.pointBelongs p tol = .ok r ∧ (OnParabola P p → r = true) ∧
      (r = true → ∃ q, OnParabola P q ∧ V2.pointDistance p q ≤ max (1 / 10 ^ 9 * max |alongV P.frame p| |alongV P.frame q|) tol) := by
  unfold Parabola2.pointBelongs
  rw [h.g2l]
  refine ⟨_, rfl, fun hp => ?_, fun hr => ?_⟩
  · rw [onParabola_iff h hF] at hp
    simp only [decide_eq_true_eq]
    rw [← hp]
    unfold mathIsClose
    rw [sub_self, abs_zero]
    exact le_max_of_le_left (by positivity)
  · simp only [decide_eq_true_eq] at hr
    refine ⟨P.frame.localToGlobal ⟨alongU P.frame p, P.a * alongU P.frame p ^ 2⟩, ?_, ?_⟩
    · rw [onParabola_iff h hF, h.alongU_l2g, h.alongV_l2g]
    · have e := h.dist_sq p (P.frame.localToGlobal ⟨alongU P.frame p, P.a * alongU P.frame p ^ 2⟩)
      rw [h.alongU_l2g, h.alongV_l2g, sub_self] at e
      have e' : V2.pointDistance p (P.frame.localToGlobal ⟨alongU P.frame p, P.a * alongU P.frame p ^ 2⟩) = |alongV P.frame p - P.a * alongU P.frame p ^ 2| := by
        have h0 : 0 ≤ V2.pointDistance p (P.frame.localToGlobal ⟨alongU P.frame p, P.a * alongU P.frame p ^ 2⟩) := Real.sqrt_nonneg _
        apply (sq_eq_sq₀ h0 (abs_nonneg _)).mp
        rw [sq_abs, e]; ring
      rw [e', h.alongV_l2g]
      exact hr

/-! ## Tangent -/

/-- The tangent vector in the frame. -/
lemma tangent_eq {P : Parabola2} (h : Ortho2 P.frame) (p : V2 ℝ) :
    ∃ t, P.tangent p = .ok t ∧ t = ⟨P.frame.basis.u.x + 2 * P.a * alongU P.frame p * P.frame.basis.v.x, P.frame.basis.u.y + 2 * P.a * alongU P.frame p * P.frame.basis.v.y⟩ := by
  unfold Parabola2.tangent
  rw [h.g2l]
  refine ⟨_, rfl, ?_⟩
  have hp := h.l2g_along p
  have hx := congrArg V2.x hp
  have hy := congrArg V2.y hp
  rw [l2g_x] at hx
  rw [l2g_y] at hy
  dsimp only at hx hy
  ext
  · change (P.frame.localToGlobal ⟨alongU P.frame p + 1, alongV P.frame p + 2 * P.a * alongU P.frame p⟩).x - p.x = _
    rw [l2g_x]
    dsimp only
    linear_combination hx
  · change (P.frame.localToGlobal ⟨alongU P.frame p + 1, alongV P.frame p + 2 * P.a * alongU P.frame p⟩).y - p.y = _
    rw [l2g_y]
    dsimp only
    linear_combination hy

/-- C91: `tangent` is not null and every differentiable motion on the parabola goes through the point with a velocity along it. -/
theorem C91_tangent {P : Parabola2} (h : Ortho2 P.frame) (hF : 0 < P.focal) (p : V2 ℝ) :
    ∃ t, P.tangent p = .ok t ∧ t ≠ ⟨0, 0⟩ ∧
      ∀ (X Y : ℝ → ℝ) (s X' Y' : ℝ), (∀ r, OnParabola P ⟨X r, Y r⟩) → HasDerivAt X X' s → HasDerivAt Y Y' s → X s = p.x → Y s = p.y →
        ∃ k : ℝ, X' = k * t.x ∧ Y' = k * t.y := by
  obtain ⟨t, ht, he⟩ := tangent_eq h p
  refine ⟨t, ht, ?_, ?_⟩
  · intro h0
    rw [h0] at he
    have hx := congrArg V2.x he
    have hy := congrArg V2.y he
    dsimp only at hx hy
    obtain ⟨h1, h2, h3⟩ := h
    unfold V2.dot at h1 h2 h3
    have : (0 : ℝ) = 1 := by linear_combination (P.frame.basis.u.x) * hx + P.frame.basis.u.y * hy + h1 + 2 * P.a * alongU P.frame p * h3
    norm_num at this
  · intro X Y s X' Y' hon hX hY hXs hYs
    -- the local coordinates of the motion
    have hU : HasDerivAt (fun r => alongU P.frame ⟨X r, Y r⟩) (X' * P.frame.basis.u.x + Y' * P.frame.basis.u.y) s :=
      ((hX.sub_const _).mul_const _).add ((hY.sub_const _).mul_const _)
    have hV : HasDerivAt (fun r => alongV P.frame ⟨X r, Y r⟩) (X' * P.frame.basis.v.x + Y' * P.frame.basis.v.y) s :=
      ((hX.sub_const _).mul_const _).add ((hY.sub_const _).mul_const _)
    have hV2 : HasDerivAt (fun r => P.a * alongU P.frame ⟨X r, Y r⟩ ^ 2) (P.a * ((2 : ℕ) * alongU P.frame ⟨X s, Y s⟩ ^ (2 - 1) * (X' * P.frame.basis.u.x + Y' * P.frame.basis.u.y))) s :=
      (hU.pow 2).const_mul _
    have hfun : (fun r => alongV P.frame ⟨X r, Y r⟩) = fun r => P.a * alongU P.frame ⟨X r, Y r⟩ ^ 2 :=
      funext fun r => (onParabola_iff h hF _).1 (hon r)
    rw [hfun] at hV
    have e := hV.unique hV2
    rw [show (⟨X s, Y s⟩ : V2 ℝ) = p by ext <;> assumption] at e
    norm_num at e
    refine ⟨X' * P.frame.basis.u.x + Y' * P.frame.basis.u.y, ?_, ?_⟩ <;> rw [he] <;> dsimp only
    · have hs := h.good.sign_spec
      obtain ⟨h1, h2, h3⟩ := h
      unfold V2.dot at h1 h2 h3
      obtain ⟨hs, sx, sy⟩ := hs
      dsimp only at sx sy
      have hs2 : (⟨P.frame, 1⟩ : Circle2).sign ^ 2 = 1 := by rcases hs with e | e <;> rw [e] <;> norm_num
      generalize (⟨P.frame, 1⟩ : Circle2).sign = g at *
      grind
    · have hs := h.good.sign_spec
      obtain ⟨h1, h2, h3⟩ := h
      unfold V2.dot at h1 h2 h3
      obtain ⟨hs, sx, sy⟩ := hs
      dsimp only at sx sy
      have hs2 : (⟨P.frame, 1⟩ : Circle2).sign ^ 2 = 1 := by rcases hs with e | e <;> rw [e] <;> norm_num
      generalize (⟨P.frame, 1⟩ : Circle2).sign = g at *
      grind

end Volmdlr.Conic
