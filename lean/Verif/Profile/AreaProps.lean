import Verif.Profile.GreenProps
import Verif.Hull.PolyProps

/-!
# C129: the area of a contour of line segments and arcs
-/

namespace Volmdlr.Profile

open Real Volmdlr.Angle Volmdlr.Arc

/-- The signed area between an arc and its chord. -/
theorem arc_straight_area {a : Arc2} {σ : ℝ} (hs : σ = 1 ∨ σ = -1) (ht : a.circle.IsTrigo ↔ σ = 1) :
    a.straightLineArea = a.circle.radius ^ 2 / 2 * (σ * a.angle - sin (σ * a.angle)) := by
  unfold Arc2.straightLineArea
  have harea : (if a.angle ≥ π then
      π * a.circle.radius ^ 2 - 1 / 2 * a.circle.radius ^ 2 * (2 * π - a.angle - sin (2 * π - a.angle))
      else 1 / 2 * a.circle.radius ^ 2 * (a.angle - sin a.angle)) = 1 / 2 * a.circle.radius ^ 2 * (a.angle - sin a.angle) := by
    split_ifs
    · rw [sin_two_pi_sub]; ring
    · rfl
  dsimp only
  rw [harea]
  rcases hs with e | e
  · rw [if_pos (ht.2 e), e, one_mul]; ring
  · rw [if_neg (fun h => by have := ht.1 h; rw [e] at this; norm_num at this), e, neg_one_mul, sin_neg]; ring

/-- The area swept by an arc is that of the triangle of its chord and that between the arc and the chord. -/
theorem arc_area {a : Arc2} (h : GoodArc a) (q : V2 ℝ) :
    sweep (fun _ => 1) 0 q (.arc a) = V2.cross (a.start - q) (a.fin - q) / 2 + a.straightLineArea := by
  obtain ⟨ψ, σ, hs, ht, -, -, hR, hlen, hpath, hstart, hfin, -⟩ := arc_shape h
  rw [arc_straight_area hs ht]
  rw [arc_sweep hR hlen hpath (fun _ => 1) 0 q (fun θ => (a.circle.frame.origin.x - q.x) * (a.circle.radius * sin θ) -
    (a.circle.frame.origin.y - q.y) * (a.circle.radius * cos θ) + a.circle.radius ^ 2 * θ) continuous_const]
  · rw [hstart, hfin]
    simp only [V2.cross, V2.sub_x, V2.sub_y]
    have e : sin (σ * a.angle) = sin (ψ + σ * a.angle) * cos ψ - cos (ψ + σ * a.angle) * sin ψ := by
      rw [← sin_sub]; ring_nf
    rw [e]
    push_cast
    ring
  · intro θ
    have h1 := (((hasDerivAt_sin θ).const_mul a.circle.radius).const_mul (a.circle.frame.origin.x - q.x))
    have h2 := (((hasDerivAt_cos θ).const_mul a.circle.radius).const_mul (a.circle.frame.origin.y - q.y))
    have h3 := (h1.sub h2).add ((hasDerivAt_id θ).const_mul (a.circle.radius ^ 2))
    refine h3.congr_deriv ?_
    linear_combination (-a.circle.radius ^ 2) * sin_sq_add_cos_sq θ

/-- What each primitive adds to the area of the polygon. -/
theorem edge_area {contour : List Edge} (h : IsContour contour) {e : Edge} (he : e ∈ contour) (q : V2 ℝ) :
    sweep (fun _ => 1) 0 q e = V2.cross (e.start - q) (e.fin - q) / 2 + e.straightLineArea := by
  cases e with
  | seg a b => rw [seg_area]; exact (add_zero _).symm
  | arc a => exact arc_area (h.arcs a he) q

/-- The signed area bounded by a contour is that of its polygon and those between the arcs and their chords, whatever the origin. -/
theorem area_decomposition {contour : List Edge} (h : IsContour contour) (q : V2 ℝ) :
    integralOf (fun _ => 1) 0 q contour = signedArea (edgePolygon contour) + (contour.map Edge.straightLineArea).sum := by
  unfold integralOf
  rw [edgePolygon_eq h.apart]
  have e : contour.map (sweep (fun _ => 1) 0 q) = contour.map fun e => V2.cross (e.start - q) (e.fin - q) / 2 + e.straightLineArea :=
    List.map_congr_left fun e he => edge_area h he q
  rw [e, List.sum_map_add]
  congr 1
  unfold signedArea
  rw [sum_chords (fun p r : V2 ℝ => V2.cross (p - q) (r - q) / 2) h.closed]
  have e2 : cyclicSum (fun p r : V2 ℝ => V2.cross (p - q) (r - q) / 2) (contour.map Edge.start) =
      cyclicSum (fun p r : V2 ℝ => 1 / 2 * crossPQ p r + ((r.x * q.y - r.y * q.x) * (1 / 2) - (p.x * q.y - p.y * q.x) * (1 / 2))) (contour.map Edge.start) := by
    apply cyclicSum_congr
    intro p r
    simp only [V2.cross, V2.sub_x, V2.sub_y, crossPQ]
    ring
  rw [e2, cyclicSum_add, cyclicSum_smul, cyclicSum_telescope (fun p : V2 ℝ => (p.x * q.y - p.y * q.x) * (1 / 2))]
  ring

theorem foldl_add_sum {α : Type*} (f : α → ℝ) (l : List α) (x : ℝ) : l.foldl (fun (acc : ℝ) (e : α) => acc + f e) x = x + (l.map f).sum := by
  induction l generalizing x with
  | nil => simp
  | cons a l ih => rw [List.foldl_cons, ih, List.map_cons, List.sum_cons]; ring

/-- `is_trigo` tells the direction of the polygon of the starts (C88): its signed area is not negative when the answer is yes, not positive when it is no. -/
def Oriented (contour : List Edge) : Prop :=
  ∃ b, Hull.isTrigo (edgePolygon contour) = some b ∧ (b = true → 0 ≤ signedArea (edgePolygon contour)) ∧ (b = false → signedArea (edgePolygon contour) ≤ 0)

theorem Oriented.spec {contour : List Edge} (h : Oriented contour) :
    ∃ s : ℝ, (s = 1 ∨ s = -1) ∧ orientation contour = some s ∧ |signedArea (edgePolygon contour)| = s * signedArea (edgePolygon contour) := by
  obtain ⟨b, hb, h1, h2⟩ := h
  unfold orientation
  rw [hb]
  cases b with
  | true => exact ⟨1, Or.inl rfl, rfl, by rw [abs_of_nonneg (h1 rfl), one_mul]⟩
  | false => exact ⟨-1, Or.inr rfl, rfl, by rw [abs_of_nonpos (h2 rfl), neg_one_mul]⟩

/-- **C129** the area of a contour is the absolute value of `½ ∮ x dy - y dx` along it. -/
theorem C129_area {contour : List Edge} (h : IsContour contour) (ho : Oriented contour) :
    contourArea contour = .ok |integralOf (fun _ => 1) 0 ⟨0, 0⟩ contour| := by
  obtain ⟨s, hs, hor, hsg⟩ := ho.spec
  rw [contourArea, hor]
  dsimp only
  congr 1
  rw [foldl_add_sum, C47_area_shoelace, hsg, List.sum_map_mul_left, ← mul_add, abs_mul, area_decomposition h ⟨0, 0⟩]
  rcases hs with e | e <;> rw [e] <;> simp

/-! ## Concrete contours -/

/-- The circle of centre `o` and radius `r`, counter-clockwise or clockwise. -/
def disc (o : V2 ℝ) (r σ : ℝ) : Circle2 := ⟨⟨o, ⟨⟨1, 0⟩, ⟨0, σ⟩⟩⟩, r⟩

theorem disc_good (o : V2 ℝ) {r σ : ℝ} (hr : 0 < r) (hs : σ = 1 ∨ σ = -1) : (disc o r σ).Good := by
  refine ⟨?_, ?_, ?_, hr⟩
  · simp [disc]
  · rcases hs with e | e <;> simp [disc, e]
  · simp [disc]

/-- The half of a circle from the angle zero. -/
noncomputable def firstHalf (o : V2 ℝ) (r σ : ℝ) : Arc2 := ⟨disc o r σ, ⟨o.x + r, o.y⟩, ⟨o.x - r, o.y⟩, 0, π⟩

/-- The half of a circle from the angle `π`. -/
noncomputable def secondHalf (o : V2 ℝ) (r σ : ℝ) : Arc2 := ⟨disc o r σ, ⟨o.x - r, o.y⟩, ⟨o.x + r, o.y⟩, π, 2 * π⟩

theorem clear_zero : Clear 0 := ⟨le_rfl, by have := pi_pos; positivity⟩

theorem clear_pi : Clear π := ⟨pi_pos.le, by have := pi_pos; linarith⟩

theorem disc_at_zero (o : V2 ℝ) (r σ : ℝ) : (disc o r σ).at 0 = ⟨o.x + r, o.y⟩ := by
  unfold Circle2.at disc; ext <;> simp

theorem disc_at_pi (o : V2 ℝ) (r σ : ℝ) : (disc o r σ).at π = ⟨o.x - r, o.y⟩ := by
  unfold Circle2.at disc; ext <;> simp [sub_eq_add_neg]

theorem firstHalf_good (o : V2 ℝ) {r σ : ℝ} (hr : 0 < r) (hs : σ = 1 ∨ σ = -1) : GoodArc (firstHalf o r σ) := by
  refine ⟨disc_good o hr hs, 0, π, clear_zero, clear_pi, ?_⟩
  refine (make_clear (disc_good o hr hs) clear_zero clear_pi).trans ?_
  unfold endAfter firstHalf
  rw [if_neg (by have := pi_pos; linarith), disc_at_zero, disc_at_pi]

theorem secondHalf_good (o : V2 ℝ) {r σ : ℝ} (hr : 0 < r) (hs : σ = 1 ∨ σ = -1) : GoodArc (secondHalf o r σ) := by
  refine ⟨disc_good o hr hs, π, 0, clear_pi, clear_zero, ?_⟩
  refine (make_clear (disc_good o hr hs) clear_pi clear_zero).trans ?_
  unfold endAfter secondHalf
  rw [if_pos (by have := pi_pos; linarith), disc_at_zero, disc_at_pi, zero_add]

theorem far_apart {p q : V2 ℝ} (h : 1 < (p.x - q.x) ^ 2 + (p.y - q.y) ^ 2) : ¬isClose2 p q (1 / 10 ^ 6) := by
  intro hc
  unfold isClose2 at hc
  have hd : 1 < V2.pointDistance p q := by
    unfold V2.pointDistance V2.norm
    rw [Real.lt_sqrt zero_le_one]
    simp only [V2.sub_x, V2.sub_y]
    nlinarith
  unfold mathIsClose at hc
  rw [sub_zero, abs_of_pos (by linarith), abs_zero, max_eq_left (a := V2.pointDistance p q) (b := 0) (by linarith)] at hc
  have := le_max_iff.1 hc
  rcases this with h | h
  · nlinarith
  · linarith

/-- A half disc on a triangle. -/
noncomputable def iceCream : List Edge := [.arc (firstHalf ⟨0, 0⟩ 1 1), .seg ⟨-1, 0⟩ ⟨0, -1⟩, .seg ⟨0, -1⟩ ⟨1, 0⟩]

theorem iceCream_contour : IsContour iceCream := by
  refine ⟨?_, ?_, ?_⟩
  · simp [iceCream, Edge.fin, Edge.start, firstHalf, List.rotate]
  · have e : iceCream.map Edge.start = [⟨1, 0⟩, ⟨-1, 0⟩, ⟨0, -1⟩] := by simp [iceCream, Edge.start, firstHalf]
    rw [e]
    refine List.isChain_cons_cons.2 ⟨far_apart (by norm_num), List.isChain_cons_cons.2 ⟨far_apart (by norm_num), List.isChain_singleton _⟩⟩
  · intro a ha
    simp only [iceCream, List.mem_cons, Edge.arc.injEq, reduceCtorEq, List.not_mem_nil, or_false] at ha
    rw [ha]
    exact firstHalf_good _ one_pos (Or.inl rfl)

theorem iceCream_polygon : edgePolygon iceCream = [⟨1, 0⟩, ⟨-1, 0⟩, ⟨0, -1⟩] := by
  rw [edgePolygon_eq iceCream_contour.apart]
  simp [iceCream, Edge.start, firstHalf]

theorem iceCream_vertex (i : ℕ) : Hull.vertex [⟨1, 0⟩, ⟨-1, 0⟩, ⟨0, -1⟩] i = ([⟨1, 0⟩, ⟨-1, 0⟩, ⟨0, -1⟩] : List (V2 ℝ)).getD (i % 3) ⟨0, 0⟩ := rfl

theorem iceCream_oriented : Oriented iceCream := by
  refine ⟨true, ?_, fun _ => ?_, fun h => by simp at h⟩
  · rw [iceCream_polygon]
    have hm : ∀ i : ℕ, (i % 3 = 0 ∧ (i + 1) % 3 = 1 ∧ (i + 2) % 3 = 2) ∨ (i % 3 = 1 ∧ (i + 1) % 3 = 2 ∧ (i + 2) % 3 = 0) ∨
        (i % 3 = 2 ∧ (i + 1) % 3 = 0 ∧ (i + 2) % 3 = 1) := by intro i; omega
    refine Hull.C88_left_turns_partial _ (by simp) ?_ ?_ ⟨0, by simp, ?_⟩
    · intro i
      rw [iceCream_vertex, iceCream_vertex]
      rcases hm i with ⟨a, b, c⟩ | ⟨a, b, c⟩ | ⟨a, b, c⟩ <;> rw [a, b] <;> simp <;> norm_num
    · intro i
      rw [iceCream_vertex, iceCream_vertex, iceCream_vertex]
      rcases hm i with ⟨a, b, c⟩ | ⟨a, b, c⟩ | ⟨a, b, c⟩ <;> rw [a, b, c] <;> simp [V2.cross]
    · rw [iceCream_vertex, iceCream_vertex, iceCream_vertex]
      simp [V2.cross]
  · rw [iceCream_polygon]
    simp [signedArea, cyclicSum, chainSum, crossPQ]

/-- A concrete case: a half disc on a triangle has the area `π / 2 + 1`. -/
example : contourArea iceCream = .ok (π / 2 + 1) := by
  rw [C129_area iceCream_contour iceCream_oriented, area_decomposition iceCream_contour, iceCream_polygon]
  congr 1
  have h1 : signedArea [(⟨1, 0⟩ : V2 ℝ), ⟨-1, 0⟩, ⟨0, -1⟩] = 1 := by simp [signedArea, cyclicSum, chainSum, crossPQ]
  have h2 : (iceCream.map Edge.straightLineArea).sum = π / 2 := by
    have hg : (disc ⟨0, 0⟩ 1 1).IsTrigo := by simp [Circle2.IsTrigo, disc, V2.cross]
    simp only [iceCream, List.map_cons, List.map_nil, Edge.straightLineArea, List.sum_cons, List.sum_nil, add_zero]
    rw [arc_straight_area (σ := 1) (Or.inl rfl) ⟨fun _ => rfl, fun _ => hg⟩]
    simp [firstHalf, disc, Arc2.angle]
    ring
  rw [h1, h2, abs_of_pos (by positivity)]
  ring

end Volmdlr.Profile
