import Verif.Profile.Model
import Verif.Arc.Props
import Verif.Polygon.Props
import Verif.Surface.Props
import Mathlib.MeasureTheory.Integral.IntervalIntegral.FundThmCalculus
import Mathlib.Analysis.SpecialFunctions.Trigonometric.Deriv

/-!
# Line integrals along the primitives of a contour

Specification: for a region bounded by a contour, the integral of a homogeneous polynomial `p` of degree `k` is the line integral
`1 / (k + 2) ∮ p (x dy - y dx)` (`½ ∮ x dy - y dx` for the area).
-/

namespace Volmdlr.Profile

open Real Volmdlr.Angle Volmdlr.Arc

/-! ## Specification -/

/-- The point of a primitive at the fraction `t` of its length. -/
noncomputable def Edge.path : Edge → ℝ → V2 ℝ
  | .seg a b, t => a + V2.smul t (b - a)
  | .arc a, t => a.pointAtAbscissa (t * a.length)

/-- The derivative of the path. -/
noncomputable def Edge.velocity (e : Edge) (t : ℝ) : V2 ℝ := ⟨deriv (fun s => (e.path s).x) t, deriv (fun s => (e.path s).y) t⟩

/-- `1 / (k + 2) ∫ p (x dy - y dx)` along the primitive, in the coordinates with origin `q`. -/
noncomputable def sweep (p : V2 ℝ → ℝ) (k : ℕ) (q : V2 ℝ) (e : Edge) : ℝ :=
  1 / (k + 2) * ∫ t in (0 : ℝ)..1, p (e.path t - q) * V2.cross (e.path t - q) (e.velocity t)

/-- The integral of `p`, homogeneous of degree `k`, over what the contour bounds (negative when the contour turns clockwise). -/
noncomputable def integralOf (p : V2 ℝ → ℝ) (k : ℕ) (q : V2 ℝ) (contour : List Edge) : ℝ := (contour.map (sweep p k q)).sum

/-- The arc was made by the constructor, from a circle with an orthonormal frame and two of its points, out of the tolerance band of the angles. -/
def GoodArc (a : Arc2) : Prop :=
  a.circle.Good ∧ ∃ α β, Clear α ∧ Clear β ∧ Arc2.make a.circle (a.circle.at α) (a.circle.at β) = .ok a

/-- A contour: each primitive ends where the next one starts, cyclically; starts of consecutive primitives are farther than the tolerance; arcs are arcs. -/
structure IsContour (contour : List Edge) : Prop where
  closed : contour.map Edge.fin = (contour.map Edge.start).rotate 1
  apart : List.IsChain (fun p q : V2 ℝ => ¬isClose2 q p (1 / 10 ^ 6)) (contour.map Edge.start)
  arcs : ∀ a, .arc a ∈ contour → GoodArc a

/-! ## Shape of arcs -/

/-- An arc in polar coordinates. -/
theorem arc_shape {a : Arc2} (h : GoodArc a) :
    ∃ ψ σ : ℝ, (σ = 1 ∨ σ = -1) ∧ (a.circle.IsTrigo ↔ σ = 1) ∧ 0 < a.angle ∧ a.angle ≤ 2 * π ∧ 0 < a.circle.radius ∧ a.length = a.circle.radius * a.angle ∧
      (∀ s, a.pointAtAbscissa s =
        ⟨a.circle.frame.origin.x + a.circle.radius * cos (ψ + σ * (s / a.circle.radius)),
         a.circle.frame.origin.y + a.circle.radius * sin (ψ + σ * (s / a.circle.radius))⟩) ∧
      a.start = ⟨a.circle.frame.origin.x + a.circle.radius * cos ψ, a.circle.frame.origin.y + a.circle.radius * sin ψ⟩ ∧
      a.fin = ⟨a.circle.frame.origin.x + a.circle.radius * cos (ψ + σ * a.angle), a.circle.frame.origin.y + a.circle.radius * sin (ψ + σ * a.angle)⟩ ∧
      (a.circle.frame.basis.u = ⟨1, 0⟩ → ψ = σ * a.angleStart) := by
  obtain ⟨hc, α, β, ha, hb, hm⟩ := h
  obtain ⟨hang0, hang1, hlen⟩ := C57_angle_range2 _ _ _ _ hm
  have hm' := make_clear hc ha hb
  rw [hm] at hm'
  have hm'' := Except.ok.inj hm'
  have hstart : a.start = a.circle.at α := by conv_lhs => rw [hm'']
  have hfin : a.fin = a.circle.at β := by conv_lhs => rw [hm'']
  have has : a.angleStart = α := by conv_lhs => rw [hm'']
  have hae : a.angleEnd = endAfter α β := by conv_lhs => rw [hm'']
  obtain ⟨e1, e2, n, hn⟩ := endAfter_range ha.1 ha.lt hb.1 hb.lt
  have hangle : a.angle = β + n * (2 * π) - α := by unfold Arc2.angle; rw [has, hae, hn]
  obtain ⟨hs, hx, hy⟩ := hc.sign_spec
  obtain ⟨φ, hφx, hφy, hφ0⟩ : ∃ φ, cos φ = a.circle.frame.basis.u.x ∧ sin φ = a.circle.frame.basis.u.y ∧ (a.circle.frame.basis.u = ⟨1, 0⟩ → φ = 0) := by
    by_cases hu : a.circle.frame.basis.u = ⟨1, 0⟩
    · exact ⟨0, by rw [hu, cos_zero], by rw [hu, sin_zero], fun _ => rfl⟩
    · have hp := Volmdlr.Surface.polar a.circle.frame.basis.u.x a.circle.frame.basis.u.y
      rw [hc.uu, sqrt_one, one_mul, one_mul] at hp
      exact ⟨_, hp.1, hp.2, fun h => absurd h hu⟩
  have hat : ∀ t, a.circle.at t = ⟨a.circle.frame.origin.x + a.circle.radius * cos (φ + a.circle.sign * t),
      a.circle.frame.origin.y + a.circle.radius * sin (φ + a.circle.sign * t)⟩ := by
    intro t
    unfold Circle2.at
    rw [hx, hy, ← hφx, ← hφy]
    rcases hs with e | e <;> rw [e] <;> ext <;> simp only [one_mul, neg_mul, cos_add, sin_add, cos_neg, sin_neg] <;> ring
  refine ⟨φ + a.circle.sign * α, a.circle.sign, hs, hc.trigo_iff, hang0, hang1, hc.pos, hlen, ?_, ?_, ?_, ?_⟩
  · intro s
    rw [C57_point_at_abscissa hc α a rfl hstart, hat]
    ring_nf
  · rw [hstart, hat]
  · rw [hfin, hangle, hat]
    have : φ + a.circle.sign * α + a.circle.sign * (β + n * (2 * π) - α) = φ + a.circle.sign * β + a.circle.sign * n * (2 * π) := by ring
    rw [this]
    rcases hs with e | e <;> rw [e]
    · rw [one_mul, one_mul, cos_add_int_mul_two_pi, sin_add_int_mul_two_pi]
    · rw [show φ + -1 * β + -1 * (n : ℝ) * (2 * π) = φ + -1 * β + ((-n : ℤ) : ℝ) * (2 * π) by push_cast; ring, cos_add_int_mul_two_pi, sin_add_int_mul_two_pi]
  · intro hu
    rw [hφ0 hu, has, zero_add]

/-! ## Sums over the primitives -/

theorem edgePolygon_eq {contour : List Edge} (h : List.IsChain (fun p q : V2 ℝ => ¬isClose2 q p (1 / 10 ^ 6)) (contour.map Edge.start)) :
    edgePolygon contour = contour.map Edge.start := by
  have gen : ∀ (l : List Edge) (ps : List (V2 ℝ)) (p : V2 ℝ), List.IsChain (fun p q : V2 ℝ => ¬isClose2 q p (1 / 10 ^ 6)) (p :: l.map Edge.start) →
      l.foldl addStart (ps ++ [p]) = ps ++ p :: l.map Edge.start := by
    intro l
    induction l with
    | nil => intro ps p _; rfl
    | cons e l ih =>
      intro ps p h
      rw [List.map_cons] at h
      have h1 := (List.isChain_cons_cons.1 h)
      rw [List.foldl_cons]
      have : addStart (ps ++ [p]) e = (ps ++ [p]) ++ [e.start] := by
        unfold addStart
        rw [List.getLast?_append_of_ne_nil _ (by simp)]
        exact if_neg h1.1
      rw [this, ih _ _ h1.2]
      simp
  cases contour with
  | nil => rfl
  | cons e l =>
    unfold edgePolygon
    rw [List.foldl_cons]
    exact gen l [] e.start h

theorem sum_chords (f : V2 ℝ → V2 ℝ → ℝ) {contour : List Edge} (h : contour.map Edge.fin = (contour.map Edge.start).rotate 1) :
    (contour.map fun e => f e.start e.fin).sum = cyclicSum f (contour.map Edge.start) := by
  rw [← zip_rollLeft]
  have : rollLeft (contour.map Edge.start) = contour.map Edge.fin := by
    rw [h]
    cases contour with
    | nil => rfl
    | cons e l => simp [rollLeft]
  rw [this, List.zipWith_map, List.zipWith_self]

/-! ## Integrals along a line segment -/

theorem seg_path (a b : V2 ℝ) (t : ℝ) : (Edge.seg a b).path t = ⟨a.x + t * (b.x - a.x), a.y + t * (b.y - a.y)⟩ := by
  change a + V2.smul t (b - a) = _
  ext
  · simp [V2.smul]; ring
  · simp [V2.smul]; ring

theorem seg_velocity (a b : V2 ℝ) (t : ℝ) : (Edge.seg a b).velocity t = ⟨b.x - a.x, b.y - a.y⟩ := by
  unfold Edge.velocity
  simp only [seg_path]
  ext
  · simp
  · simp

theorem seg_cross (q a b : V2 ℝ) (t : ℝ) : V2.cross ((Edge.seg a b).path t - q) ((Edge.seg a b).velocity t) = V2.cross (a - q) (b - q) := by
  rw [seg_path, seg_velocity]
  simp only [V2.cross, V2.sub_x, V2.sub_y]
  ring

/-- Along a line segment, for a polynomial of degree two on it. -/
theorem seg_sweep (p : V2 ℝ → ℝ) (k : ℕ) (q a b : V2 ℝ) (c0 c1 c2 : ℝ) (hp : ∀ t, p ((Edge.seg a b).path t - q) = c0 + c1 * t + c2 * t ^ 2) :
    sweep p k q (.seg a b) = 1 / (k + 2) * ((c0 + c1 / 2 + c2 / 3) * V2.cross (a - q) (b - q)) := by
  unfold sweep
  congr 1
  simp only [hp, seg_cross]
  rw [intervalIntegral.integral_eq_sub_of_hasDerivAt (f := fun t => (c0 * t + c1 / 2 * t ^ 2 + c2 / 3 * t ^ 3) * V2.cross (a - q) (b - q))]
  · ring
  · intro t _
    have h1 := ((hasDerivAt_id t).const_mul c0).add (((hasDerivAt_pow 2 t).const_mul (c1 / 2)))
    have h2 := (h1.add ((hasDerivAt_pow 3 t).const_mul (c2 / 3))).mul_const (V2.cross (a - q) (b - q))
    refine (h2.congr_deriv ?_).congr_of_eventuallyEq (Filter.Eventually.of_forall fun t => ?_)
    · push_cast; ring
    · simp only [Pi.add_apply, id]
  · exact (by fun_prop : Continuous _).intervalIntegrable _ _

theorem seg_area (q a b : V2 ℝ) : sweep (fun _ => 1) 0 q (.seg a b) = V2.cross (a - q) (b - q) / 2 := by
  rw [seg_sweep _ _ _ _ _ 1 0 0 (fun t => by ring)]
  push_cast; ring

theorem seg_x (q a b : V2 ℝ) : sweep V2.x 1 q (.seg a b) = ((a.x - q.x) + (b.x - q.x)) * V2.cross (a - q) (b - q) / 6 := by
  rw [seg_sweep _ _ _ _ _ (a.x - q.x) (b.x - a.x) 0 (fun t => by rw [seg_path]; simp only [V2.sub_x]; ring)]
  push_cast; ring

theorem seg_y (q a b : V2 ℝ) : sweep V2.y 1 q (.seg a b) = ((a.y - q.y) + (b.y - q.y)) * V2.cross (a - q) (b - q) / 6 := by
  rw [seg_sweep _ _ _ _ _ (a.y - q.y) (b.y - a.y) 0 (fun t => by rw [seg_path]; simp only [V2.sub_y]; ring)]
  push_cast; ring

theorem seg_xx (q a b : V2 ℝ) : sweep (fun p => p.x ^ 2) 2 q (.seg a b) =
    ((a.x - q.x) ^ 2 + (a.x - q.x) * (b.x - q.x) + (b.x - q.x) ^ 2) * V2.cross (a - q) (b - q) / 12 := by
  rw [seg_sweep _ _ _ _ _ ((a.x - q.x) ^ 2) (2 * (a.x - q.x) * (b.x - a.x)) ((b.x - a.x) ^ 2) (fun t => by rw [seg_path]; simp only [V2.sub_x]; ring)]
  push_cast; ring

theorem seg_yy (q a b : V2 ℝ) : sweep (fun p => p.y ^ 2) 2 q (.seg a b) =
    ((a.y - q.y) ^ 2 + (a.y - q.y) * (b.y - q.y) + (b.y - q.y) ^ 2) * V2.cross (a - q) (b - q) / 12 := by
  rw [seg_sweep _ _ _ _ _ ((a.y - q.y) ^ 2) (2 * (a.y - q.y) * (b.y - a.y)) ((b.y - a.y) ^ 2) (fun t => by rw [seg_path]; simp only [V2.sub_y]; ring)]
  push_cast; ring

theorem seg_xy (q a b : V2 ℝ) : sweep (fun p => p.x * p.y) 2 q (.seg a b) =
    ((a.x - q.x) * (b.y - q.y) + 2 * (a.x - q.x) * (a.y - q.y) + 2 * (b.x - q.x) * (b.y - q.y) + (b.x - q.x) * (a.y - q.y)) *
      V2.cross (a - q) (b - q) / 24 := by
  rw [seg_sweep _ _ _ _ _ ((a.x - q.x) * (a.y - q.y)) ((a.x - q.x) * (b.y - a.y) + (b.x - a.x) * (a.y - q.y)) ((b.x - a.x) * (b.y - a.y))
    (fun t => by rw [seg_path]; simp only [V2.sub_x, V2.sub_y]; ring)]
  push_cast; ring

/-! ## Integrals along an arc -/

/-- Along an arc, from an antiderivative in the polar angle. -/
theorem arc_sweep {a : Arc2} {ψ σ : ℝ} (hR : 0 < a.circle.radius) (hlen : a.length = a.circle.radius * a.angle)
    (hpath : ∀ s, a.pointAtAbscissa s =
        ⟨a.circle.frame.origin.x + a.circle.radius * cos (ψ + σ * (s / a.circle.radius)),
         a.circle.frame.origin.y + a.circle.radius * sin (ψ + σ * (s / a.circle.radius))⟩)
    (p : V2 ℝ → ℝ) (k : ℕ) (q : V2 ℝ) (P : ℝ → ℝ) (hc : Continuous fun θ : ℝ => p ⟨a.circle.frame.origin.x + a.circle.radius * cos θ - q.x,
        a.circle.frame.origin.y + a.circle.radius * sin θ - q.y⟩)
    (hP : ∀ θ, HasDerivAt P (p ⟨a.circle.frame.origin.x + a.circle.radius * cos θ - q.x, a.circle.frame.origin.y + a.circle.radius * sin θ - q.y⟩ *
      ((a.circle.frame.origin.x + a.circle.radius * cos θ - q.x) * (a.circle.radius * cos θ) +
        (a.circle.frame.origin.y + a.circle.radius * sin θ - q.y) * (a.circle.radius * sin θ))) θ) :
    sweep p k q (.arc a) = 1 / (k + 2) * (P (ψ + σ * a.angle) - P ψ) := by
  have hpath' : ∀ t, (Edge.arc a).path t = ⟨a.circle.frame.origin.x + a.circle.radius * cos (ψ + t * (σ * a.angle)),
      a.circle.frame.origin.y + a.circle.radius * sin (ψ + t * (σ * a.angle))⟩ := by
    intro t
    change a.pointAtAbscissa (t * a.length) = _
    rw [hpath, hlen, show σ * (t * (a.circle.radius * a.angle) / a.circle.radius) = t * (σ * a.angle) by field_simp]
  have hin : ∀ t, HasDerivAt (fun s : ℝ => ψ + s * (σ * a.angle)) (σ * a.angle) t := by
    intro t
    have := ((hasDerivAt_id t).mul_const (σ * a.angle)).const_add ψ
    simpa using this
  have hvel : ∀ t, (Edge.arc a).velocity t = ⟨a.circle.radius * (-sin (ψ + t * (σ * a.angle)) * (σ * a.angle)),
      a.circle.radius * (cos (ψ + t * (σ * a.angle)) * (σ * a.angle))⟩ := by
    intro t
    unfold Edge.velocity
    simp only [hpath']
    ext
    · exact (((hin t).cos.const_mul a.circle.radius).const_add _).deriv
    · exact (((hin t).sin.const_mul a.circle.radius).const_add _).deriv
  unfold sweep
  congr 1
  have e : ∀ t, p ((Edge.arc a).path t - q) * V2.cross ((Edge.arc a).path t - q) ((Edge.arc a).velocity t) =
      p ⟨a.circle.frame.origin.x + a.circle.radius * cos (ψ + t * (σ * a.angle)) - q.x, a.circle.frame.origin.y + a.circle.radius * sin (ψ + t * (σ * a.angle)) - q.y⟩ *
      ((a.circle.frame.origin.x + a.circle.radius * cos (ψ + t * (σ * a.angle)) - q.x) * (a.circle.radius * cos (ψ + t * (σ * a.angle))) +
        (a.circle.frame.origin.y + a.circle.radius * sin (ψ + t * (σ * a.angle)) - q.y) * (a.circle.radius * sin (ψ + t * (σ * a.angle)))) * (σ * a.angle) := by
    intro t
    rw [hpath', hvel]
    have : (⟨a.circle.frame.origin.x + a.circle.radius * cos (ψ + t * (σ * a.angle)), a.circle.frame.origin.y + a.circle.radius * sin (ψ + t * (σ * a.angle))⟩ : V2 ℝ) - q =
        ⟨a.circle.frame.origin.x + a.circle.radius * cos (ψ + t * (σ * a.angle)) - q.x, a.circle.frame.origin.y + a.circle.radius * sin (ψ + t * (σ * a.angle)) - q.y⟩ := rfl
    rw [this]
    simp only [V2.cross]
    ring
  simp only [e]
  rw [intervalIntegral.integral_eq_sub_of_hasDerivAt (f := fun t => P (ψ + t * (σ * a.angle)))]
  · rw [one_mul, zero_mul, add_zero]
  · intro t _
    exact (hP _).comp t (hin t)
  · have hc' : Continuous fun t : ℝ => p ⟨a.circle.frame.origin.x + a.circle.radius * cos (ψ + t * (σ * a.angle)) - q.x,
        a.circle.frame.origin.y + a.circle.radius * sin (ψ + t * (σ * a.angle)) - q.y⟩ := hc.comp (by fun_prop)
    exact ((hc'.mul (by fun_prop)).mul continuous_const).intervalIntegrable _ _

end Volmdlr.Profile
