import Verif.TriCircle.Model
import Verif.Segment.Props

namespace Volmdlr.TriCircle

/-! ## Specification -/

/-- The three points are not on one line (specification). -/
def Tri2.Proper (t : Tri2) : Prop := V2.cross (t.p2 - t.p1) (t.p3 - t.p1) ≠ 0

/-- The circle of centre `o` and radius `r` touches the side `[p, q]` and does not cross it (specification). -/
def Touches (o : V2 ℝ) (r : ℝ) (p q : V2 ℝ) : Prop :=
  (∃ x, OnSeg2 p q x ∧ V2.pointDistance o x = r) ∧ ∀ x, OnSeg2 p q x → r ≤ V2.pointDistance o x

/-- `o` is a strict convex combination of the three points (specification). -/
def Tri2.Interior (t : Tri2) (o : V2 ℝ) : Prop :=
  ∃ α β γ : ℝ, 0 < α ∧ 0 < β ∧ 0 < γ ∧ α + β + γ = 1 ∧ o = V2.smul α t.p1 + V2.smul β t.p2 + V2.smul γ t.p3

/-! ## Sides -/

theorem dist_sq (p q : V2 ℝ) : V2.pointDistance p q ^ 2 = (p.x - q.x) ^ 2 + (p.y - q.y) ^ 2 := by
  unfold V2.pointDistance
  rw [V2.norm_pow_two]
  simp only [V2.dot, V2.sub_x, V2.sub_y]; ring

theorem dist_nonneg (p q : V2 ℝ) : 0 ≤ V2.pointDistance p q := V2.norm_nonneg _

theorem dist_comm (p q : V2 ℝ) : V2.pointDistance p q = V2.pointDistance q p := by
  have h1 := dist_sq p q
  have h2 := dist_sq q p
  have : V2.pointDistance p q ^ 2 = V2.pointDistance q p ^ 2 := by rw [h1, h2]; ring
  exact (pow_left_inj₀ (dist_nonneg _ _) (dist_nonneg _ _) two_ne_zero).mp this

/-- Heron, as the squared area. -/
theorem heron (p q r : V2 ℝ) {a b c : ℝ} (ha : a = V2.pointDistance p q) (hb : b = V2.pointDistance p r) (hc : c = V2.pointDistance q r) :
    4 * V2.cross (q - p) (r - p) ^ 2 = (a + b + c) * (b + c - a) * (a + c - b) * (a + b - c) := by
  have h1 : a ^ 2 = (p.x - q.x) ^ 2 + (p.y - q.y) ^ 2 := by rw [ha, dist_sq]
  have h2 : b ^ 2 = (p.x - r.x) ^ 2 + (p.y - r.y) ^ 2 := by rw [hb, dist_sq]
  have h3 : c ^ 2 = (q.x - r.x) ^ 2 + (q.y - r.y) ^ 2 := by rw [hc, dist_sq]
  have e : (a + b + c) * (b + c - a) * (a + c - b) * (a + b - c) = 2 * a ^ 2 * b ^ 2 + 2 * b ^ 2 * c ^ 2 + 2 * c ^ 2 * a ^ 2 - (a ^ 2) ^ 2 - (b ^ 2) ^ 2 - (c ^ 2) ^ 2 := by ring
  rw [e, h1, h2, h3]
  simp only [V2.cross, V2.sub_x, V2.sub_y]
  ring

/-- Triangle inequality. -/
theorem triangle (p q r : V2 ℝ) : V2.pointDistance p q ≤ V2.pointDistance p r + V2.pointDistance q r := by
  have h1 := dist_sq p q
  have h2 := dist_sq p r
  have h3 := dist_sq q r
  have n2 := dist_nonneg p r
  have n3 := dist_nonneg q r
  generalize V2.pointDistance p q = a at *
  generalize V2.pointDistance p r = b at *
  generalize V2.pointDistance q r = c at *
  apply le_of_sq_le_sq ?_ (by positivity)
  -- Cauchy-Schwarz
  have hcs : ((p.x - r.x) * (r.x - q.x) + (p.y - r.y) * (r.y - q.y)) ≤ b * c := by
    apply le_of_sq_le_sq ?_ (by positivity)
    rw [mul_pow, h2, h3]
    nlinarith [sq_nonneg ((p.x - r.x) * (r.y - q.y) - (p.y - r.y) * (r.x - q.x))]
  rw [h1, add_sq, h2, h3]
  nlinarith
where le_of_sq_le_sq {x y : ℝ} (h : x ^ 2 ≤ y ^ 2) (hy : 0 ≤ y) : x ≤ y := abs_le_of_sq_le_sq' h hy |>.2

/-- The facts about the three lengths of a proper triangle. -/
theorem proper_sides {t : Tri2} (h : t.Proper) {a b c : ℝ} (ha : a = V2.pointDistance t.p1 t.p2) (hb : b = V2.pointDistance t.p1 t.p3)
    (hc : c = V2.pointDistance t.p2 t.p3) : 0 < a ∧ 0 < b ∧ 0 < c ∧ 0 < b + c - a ∧ 0 < a + c - b ∧ 0 < a + b - c := by
  have hh := heron t.p1 t.p2 t.p3 ha hb hc
  have hpos : 0 < V2.cross (t.p2 - t.p1) (t.p3 - t.p1) ^ 2 := by
    exact pow_pos_of_ne h
  have t1 := triangle t.p1 t.p2 t.p3
  have t2 := triangle t.p1 t.p3 t.p2
  have t3 := triangle t.p2 t.p3 t.p1
  rw [dist_comm t.p3 t.p2] at t2
  rw [dist_comm t.p2 t.p1, dist_comm t.p3 t.p1] at t3
  rw [← ha, ← hb, ← hc] at t1 t2 t3
  have ne : (a + b + c) * (b + c - a) * (a + c - b) * (a + b - c) ≠ 0 := by rw [← hh]; positivity
  have n0 : 0 ≤ a := by rw [ha]; exact dist_nonneg _ _
  have n1 : 0 ≤ b := by rw [hb]; exact dist_nonneg _ _
  have n2 : 0 ≤ c := by rw [hc]; exact dist_nonneg _ _
  have e1 : b + c - a ≠ 0 := fun e => ne (by rw [e]; ring)
  have e2 : a + c - b ≠ 0 := fun e => ne (by rw [e]; ring)
  have e3 : a + b - c ≠ 0 := fun e => ne (by rw [e]; ring)
  have f1 : 0 < b + c - a := lt_of_le_of_ne (by linarith) e1.symm
  have f2 : 0 < a + c - b := lt_of_le_of_ne (by linarith) e2.symm
  have f3 : 0 < a + b - c := lt_of_le_of_ne (by linarith) e3.symm
  exact ⟨by linarith, by linarith, by linarith, f1, f2, f3⟩
where pow_pos_of_ne {x : ℝ} (h : x ≠ 0) : 0 < x ^ 2 := by positivity

theorem area_pos {t : Tri2} (h : t.Proper) : 0 < t.area := by
  unfold Tri2.area triangleArea
  have : 0 < |V2.cross (t.p2 - t.p1) (t.p3 - t.p1)| := abs_pos.mpr h
  positivity

theorem area_sq (t : Tri2) : 4 * t.area ^ 2 = V2.cross (t.p2 - t.p1) (t.p3 - t.p1) ^ 2 := by
  unfold Tri2.area triangleArea
  rw [div_pow, sq_abs]
  simp only [V2.cross, V2.sub_x, V2.sub_y]; ring

/-! ## Degenerate triangles -/

/-- C160: `circumcircle_radius` divides by zero exactly when the three points are aligned, `incircle_radius` exactly when they are at the same
place. -/
theorem C160_degenerate (t : Tri2) : (t.circumcircleRadius = none ↔ ¬ t.Proper) ∧ (t.incircleRadius = none ↔ t.p1 = t.p2 ∧ t.p1 = t.p3) := by
  constructor
  · unfold Tri2.circumcircleRadius
    dsimp only
    have h1 := area_sq t
    split_ifs with h
    · simp only [true_iff]
      unfold Tri2.Proper
      rw [not_not]
      have h0 : t.area = 0 := by linarith
      rw [h0] at h1
      have : V2.cross (t.p2 - t.p1) (t.p3 - t.p1) ^ 2 = 0 := by linarith
      exact pow_eq_zero_iff two_ne_zero |>.1 this
    · simp only [reduceCtorEq, false_iff, not_not]
      intro hc
      apply h
      rw [hc] at h1
      have : t.area ^ 2 = 0 := by linarith
      rw [pow_eq_zero_iff two_ne_zero |>.1 this, zero_mul]
  · unfold Tri2.incircleRadius
    dsimp only
    have n1 := dist_nonneg t.p1 t.p2
    have n2 := dist_nonneg t.p1 t.p3
    have n3 := dist_nonneg t.p2 t.p3
    have hz : ∀ p q : V2 ℝ, V2.pointDistance p q = 0 ↔ p = q := by
      intro p q
      have := dist_sq p q
      constructor
      · intro h
        rw [h] at this
        have hx : (p.x - q.x) ^ 2 = 0 := by nlinarith [sq_nonneg (p.x - q.x), sq_nonneg (p.y - q.y)]
        have hy : (p.y - q.y) ^ 2 = 0 := by nlinarith [sq_nonneg (p.x - q.x), sq_nonneg (p.y - q.y)]
        ext
        · have := pow_eq_zero_iff two_ne_zero |>.1 hx; linarith
        · have := pow_eq_zero_iff two_ne_zero |>.1 hy; linarith
      · rintro rfl
        have h2 : V2.pointDistance p p ^ 2 = 0 := by rw [this]; ring
        exact pow_eq_zero_iff two_ne_zero |>.1 h2
    split_ifs with h
    · simp only [true_iff]
      exact ⟨(hz _ _).1 (by linarith), (hz _ _).1 (by linarith)⟩
    · simp only [reduceCtorEq, false_iff]
      rintro ⟨h1, h2⟩
      apply h
      rw [(hz _ _).2 h1, (hz _ _).2 h2, (hz t.p2 t.p3).2 (by rw [← h1, h2])]
      ring

/-- Three aligned points: a radius for the inscribed circle, none for the other. -/
example : (⟨⟨0, 0⟩, ⟨1, 0⟩, ⟨2, 0⟩⟩ : Tri2).circumcircleRadius = none ∧ (⟨⟨0, 0⟩, ⟨1, 0⟩, ⟨2, 0⟩⟩ : Tri2).incircleRadius ≠ none := by
  constructor
  · rw [(C160_degenerate _).1]
    simp [Tri2.Proper, V2.cross, V2.sub_x, V2.sub_y]
  · rw [ne_eq, (C160_degenerate _).2]
    simp

/-! ## The circumscribed circle -/

/-- C160: the circumscribed circle: exactly one point is at the same distance of the three points, and `circumcircle_radius` is that
distance. -/
theorem C160_circumcircle (t : Tri2) (h : t.Proper) :
    ∃ r, t.circumcircleRadius = some r ∧ 0 < r ∧
      ∃ o, (V2.pointDistance o t.p1 = r ∧ V2.pointDistance o t.p2 = r ∧ V2.pointDistance o t.p3 = r) ∧
        ∀ o', V2.pointDistance o' t.p1 = V2.pointDistance o' t.p2 → V2.pointDistance o' t.p2 = V2.pointDistance o' t.p3 → o' = o := by
  obtain ⟨a, ha⟩ : ∃ a, a = V2.pointDistance t.p1 t.p2 := ⟨_, rfl⟩
  obtain ⟨b, hb⟩ : ∃ a, a = V2.pointDistance t.p1 t.p3 := ⟨_, rfl⟩
  obtain ⟨c, hc⟩ : ∃ a, a = V2.pointDistance t.p2 t.p3 := ⟨_, rfl⟩
  obtain ⟨pa, pb, pc, -, -, -⟩ := proper_sides h ha hb hc
  have hA := area_pos h
  have hAs := area_sq t
  refine ⟨a * b * c / (t.area * 4), ?_, by positivity, ?_⟩
  · unfold Tri2.circumcircleRadius
    dsimp only
    rw [← ha, ← hb, ← hc, if_neg (by positivity)]
  obtain ⟨D, hD⟩ : ∃ D, D = V2.cross (t.p2 - t.p1) (t.p3 - t.p1) := ⟨_, rfl⟩
  have hD0 : D ≠ 0 := by rw [hD]; exact h
  have h1 : a ^ 2 = (t.p1.x - t.p2.x) ^ 2 + (t.p1.y - t.p2.y) ^ 2 := by rw [ha, dist_sq]
  have h2 : b ^ 2 = (t.p1.x - t.p3.x) ^ 2 + (t.p1.y - t.p3.y) ^ 2 := by rw [hb, dist_sq]
  have h3 : c ^ 2 = (t.p2.x - t.p3.x) ^ 2 + (t.p2.y - t.p3.y) ^ 2 := by rw [hc, dist_sq]
  rw [← hD] at hAs
  simp only [V2.cross, V2.sub_x, V2.sub_y] at hD
  obtain ⟨⟨x1, y1⟩, ⟨x2, y2⟩, ⟨x3, y3⟩⟩ := t
  dsimp only at *
  obtain ⟨A, hAd⟩ : ∃ A, A = Tri2.area ⟨⟨x1, y1⟩, ⟨x2, y2⟩, ⟨x3, y3⟩⟩ := ⟨_, rfl⟩
  rw [← hAd] at hA hAs ⊢
  have hr2 : (a * b * c / (A * 4)) ^ 2 = (a * b * c) ^ 2 / (4 * D ^ 2) := by
    rw [div_pow, ← hAs]; congr 1; ring
  have hr0 : 0 ≤ a * b * c / (A * 4) := by positivity
  refine ⟨⟨x1 + (a ^ 2 * (y3 - y1) - b ^ 2 * (y2 - y1)) / (2 * D), y1 + (b ^ 2 * (x2 - x1) - a ^ 2 * (x3 - x1)) / (2 * D)⟩, ?_, ?_⟩
  · have key : ∀ q : V2 ℝ, V2.pointDistance ⟨x1 + (a ^ 2 * (y3 - y1) - b ^ 2 * (y2 - y1)) / (2 * D), y1 + (b ^ 2 * (x2 - x1) - a ^ 2 * (x3 - x1)) / (2 * D)⟩ q ^ 2
        = (a * b * c / (A * 4)) ^ 2 →
        V2.pointDistance ⟨x1 + (a ^ 2 * (y3 - y1) - b ^ 2 * (y2 - y1)) / (2 * D), y1 + (b ^ 2 * (x2 - x1) - a ^ 2 * (x3 - x1)) / (2 * D)⟩ q = a * b * c / (A * 4) :=
      fun q hq => (pow_left_inj₀ (dist_nonneg _ _) hr0 two_ne_zero).mp hq
    have e : (a * b * c) ^ 2 = a ^ 2 * b ^ 2 * c ^ 2 := by ring
    refine ⟨key _ ?_, key _ ?_, key _ ?_⟩ <;> rw [dist_sq, hr2, e, h1, h2, h3] <;> field_simp <;> rw [hD] <;> ring
  · rintro ⟨ox, oy⟩ g1 g2
    have g1' := congrArg (fun z => z ^ 2) g1
    have g2' := congrArg (fun z => z ^ 2) g2
    simp only [dist_sq] at g1' g2'
    have q1 : 2 * ((ox - x1) * (x2 - x1) + (oy - y1) * (y2 - y1)) = a ^ 2 := by rw [h1]; linear_combination g1'
    have q2 : 2 * ((ox - x1) * (x3 - x1) + (oy - y1) * (y3 - y1)) = b ^ 2 := by rw [h2]; linear_combination g1' + g2'
    ext
    · dsimp only; field_simp; rw [← q1, ← q2, hD]; ring
    · dsimp only; field_simp; rw [← q1, ← q2, hD]; ring

/-! ## The inscribed circle -/

theorem cross_perm (p q r : V2 ℝ) : V2.cross (q - p) (r - p) = V2.cross (r - q) (p - q) := by
  simp only [V2.cross, V2.sub_x, V2.sub_y]; ring

/-- The centre of the inscribed circle of `p q r` touches `[p, q]`; `a`, `b`, `c` are the lengths of the sides opposite to `p`, `q`, `r`. -/
theorem touches_side (p q r o : V2 ℝ) {a b c S : ℝ} (ha : a = V2.pointDistance q r) (hb : b = V2.pointDistance p r)
    (hc : c = V2.pointDistance p q) (hS : S = |V2.cross (q - p) (r - p)|) (hc0 : 0 < c) (hP : 0 < a + b + c)
    (t1 : 0 ≤ b + c - a) (t2 : 0 ≤ a + c - b)
    (hx : o.x * (a + b + c) = a * p.x + b * q.x + c * r.x) (hy : o.y * (a + b + c) = a * p.y + b * q.y + c * r.y) :
    Touches o (S / (a + b + c)) p q := by
  have h1 : c ^ 2 = (p.x - q.x) ^ 2 + (p.y - q.y) ^ 2 := by rw [hc, dist_sq]
  have h2 : b ^ 2 = (p.x - r.x) ^ 2 + (p.y - r.y) ^ 2 := by rw [hb, dist_sq]
  have h3 : a ^ 2 = (q.x - r.x) ^ 2 + (q.y - r.y) ^ 2 := by rw [ha, dist_sq]
  have hS2 : S ^ 2 = ((q.x - p.x) * (r.y - p.y) - (q.y - p.y) * (r.x - p.x)) ^ 2 := by
    rw [hS, sq_abs]; simp only [V2.cross, V2.sub_x, V2.sub_y]
  have hS0 : 0 ≤ S := by rw [hS]; exact abs_nonneg _
  have hrn : 0 ≤ S / (a + b + c) := by positivity
  obtain ⟨P, hPd⟩ : ∃ P, P = a + b + c := ⟨_, rfl⟩
  rw [← hPd] at hP hrn hx hy ⊢
  -- distance from the centre to the line of the side
  have hcr : ((q.x - p.x) * (o.y - p.y) - (q.y - p.y) * (o.x - p.x)) * P = c * ((q.x - p.x) * (r.y - p.y) - (q.y - p.y) * (r.x - p.x)) := by
    rw [hPd] at hx hy ⊢
    linear_combination (q.x - p.x) * hy - (q.y - p.y) * hx
  have hdot : ((q.x - p.x) * (o.x - p.x) + (q.y - p.y) * (o.y - p.y)) = c * (b + c - a) / 2 := by
    have : ((q.x - p.x) * (o.x - p.x) + (q.y - p.y) * (o.y - p.y)) * P = c * (b + c - a) / 2 * P := by
      have e1 : ((q.x - p.x) * (o.x - p.x) + (q.y - p.y) * (o.y - p.y)) * P
          = b * ((p.x - q.x) ^ 2 + (p.y - q.y) ^ 2) + c * ((q.x - p.x) * (r.x - p.x) + (q.y - p.y) * (r.y - p.y)) := by
        rw [hPd] at hx hy ⊢
        linear_combination (q.x - p.x) * hx + (q.y - p.y) * hy
      rw [e1, ← h1, hPd]
      linear_combination c / 2 * h3 - c / 2 * h2 - c / 2 * h1
    exact mul_right_cancel₀ hP.ne' this
  -- the squared distance to a point of the line of the side
  have hpt : ∀ x : V2 ℝ, ∀ s : ℝ, x.x = p.x + s * (q.x - p.x) → x.y = p.y + s * (q.y - p.y) →
      V2.pointDistance o x ^ 2 = (S / P) ^ 2 + (s * c - (b + c - a) / 2) ^ 2 := by
    intro x s ex ey
    rw [dist_sq, ex, ey]
    have hc2 : c ^ 2 ≠ 0 := by positivity
    apply mul_left_cancel₀ hc2
    have e2 : c ^ 2 * (S / P) ^ 2 = ((q.x - p.x) * (o.y - p.y) - (q.y - p.y) * (o.x - p.x)) ^ 2 := by
      rw [div_pow, hS2]; field_simp; linear_combination -(((q.x - p.x) * (o.y - p.y) - (q.y - p.y) * (o.x - p.x)) * P + c * ((q.x - p.x) * (r.y - p.y) - (q.y - p.y) * (r.x - p.x))) * hcr
    rw [mul_add (c ^ 2) ((S / P) ^ 2), e2]
    have e3 : c ^ 2 * (s * c - (b + c - a) / 2) ^ 2 = (s * c ^ 2 - c * (b + c - a) / 2) ^ 2 := by ring
    rw [e3, ← hdot, h1]
    ring
  constructor
  · obtain ⟨s, hs⟩ : ∃ s, s = (b + c - a) / (2 * c) := ⟨_, rfl⟩
    refine ⟨⟨p.x + s * (q.x - p.x), p.y + s * (q.y - p.y)⟩, ⟨s, ?_, ?_, rfl, rfl⟩, ?_⟩
    · rw [hs]; positivity
    · rw [hs, div_le_one (by positivity)]; linarith
    · apply (pow_left_inj₀ (dist_nonneg _ _) hrn two_ne_zero).mp
      rw [hpt _ s rfl rfl, hs]
      field_simp; ring
  · rintro x ⟨s, -, -, ex, ey⟩
    apply (pow_le_pow_iff_left₀ hrn (dist_nonneg _ _) two_ne_zero).mp
    rw [hpt x s ex ey]
    nlinarith [sq_nonneg (s * c - (b + c - a) / 2)]

/-- C160: the inscribed circle: a point inside the triangle is the centre of a circle that touches the three sides without crossing
them, and `incircle_radius` is its radius. -/
theorem C160_incircle (t : Tri2) (h : t.Proper) :
    ∃ r, t.incircleRadius = some r ∧ 0 < r ∧
      ∃ o, t.Interior o ∧ Touches o r t.p1 t.p2 ∧ Touches o r t.p2 t.p3 ∧ Touches o r t.p3 t.p1 := by
  obtain ⟨c, hc⟩ : ∃ a, a = V2.pointDistance t.p1 t.p2 := ⟨_, rfl⟩
  obtain ⟨b, hb⟩ : ∃ a, a = V2.pointDistance t.p1 t.p3 := ⟨_, rfl⟩
  obtain ⟨a, ha⟩ : ∃ a, a = V2.pointDistance t.p2 t.p3 := ⟨_, rfl⟩
  obtain ⟨pc, pb, pa, s1, s2, s3⟩ := proper_sides h hc hb ha
  obtain ⟨S, hS⟩ : ∃ S, S = |V2.cross (t.p2 - t.p1) (t.p3 - t.p1)| := ⟨_, rfl⟩
  have hS0 : 0 < S := by rw [hS]; exact abs_pos.mpr h
  have hP : 0 < a + b + c := by positivity
  refine ⟨S / (a + b + c), ?_, by positivity,
    ⟨(a * t.p1.x + b * t.p2.x + c * t.p3.x) / (a + b + c), (a * t.p1.y + b * t.p2.y + c * t.p3.y) / (a + b + c)⟩, ?_, ?_, ?_, ?_⟩
  · unfold Tri2.incircleRadius Tri2.area triangleArea
    dsimp only
    rw [← ha, ← hb, ← hc, if_neg (by positivity)]
    congr 1
    rw [show |(t.p2 - t.p1).x * (t.p3 - t.p1).y - (t.p2 - t.p1).y * (t.p3 - t.p1).x| = S from hS.symm, show c + b + a = a + b + c by ring]; congr 1; ring
  · refine ⟨a / (a + b + c), b / (a + b + c), c / (a + b + c), by positivity, by positivity, by positivity, by field_simp, ?_⟩
    ext <;> simp <;> field_simp
  · exact touches_side t.p1 t.p2 t.p3 _ ha hb hc hS pc hP (by linarith) (by linarith) (by dsimp only; field_simp) (by dsimp only; field_simp)
  · have hP' : 0 < b + c + a := by linarith
    have := touches_side t.p2 t.p3 t.p1 ⟨(a * t.p1.x + b * t.p2.x + c * t.p3.x) / (a + b + c), (a * t.p1.y + b * t.p2.y + c * t.p3.y) / (a + b + c)⟩
      (a := b) (b := c) (c := a) (S := S) (by rw [dist_comm]; exact hb) (by rw [dist_comm]; exact hc) ha (by rw [hS, cross_perm]) pa hP' (by linarith)
      (by linarith) (by dsimp only; field_simp; ring) (by dsimp only; field_simp; ring)
    rwa [show b + c + a = a + b + c by ring] at this
  · have hP' : 0 < c + a + b := by linarith
    have := touches_side t.p3 t.p1 t.p2 ⟨(a * t.p1.x + b * t.p2.x + c * t.p3.x) / (a + b + c), (a * t.p1.y + b * t.p2.y + c * t.p3.y) / (a + b + c)⟩
      (a := c) (b := a) (c := b) (S := S) hc (by rw [dist_comm]; exact ha) (by rw [dist_comm]; exact hb) (by rw [hS, cross_perm, cross_perm]) pb hP'
      (by linarith) (by linarith) (by dsimp only; field_simp; ring) (by dsimp only; field_simp; ring)
    rwa [show c + a + b = a + b + c by ring] at this

/-! ## Quality -/

/-- Euler's inequality for the lengths of the sides. -/
theorem schur {x y z : ℝ} (hx : 0 < x) (hy : 0 < y) (hz : 0 < z) :
    8 * (x * y * z) ≤ (y + z) * (x + z) * (x + y) ∧ (8 * (x * y * z) = (y + z) * (x + z) * (x + y) → x = y ∧ y = z) := by
  have e : (y + z) * (x + z) * (x + y) - 8 * (x * y * z) = x * (y - z) ^ 2 + y * (x - z) ^ 2 + z * (x - y) ^ 2 := by ring
  have g1 : 0 ≤ x * (y - z) ^ 2 := by positivity
  have g2 : 0 ≤ y * (x - z) ^ 2 := by positivity
  have g3 : 0 ≤ z * (x - y) ^ 2 := by positivity
  refine ⟨by linarith, fun h => ?_⟩
  have k1 : x * (y - z) ^ 2 = 0 := by linarith
  have k3 : z * (x - y) ^ 2 = 0 := by linarith
  have l1 : y - z = 0 := by simpa [hx.ne'] using k1
  have l3 : x - y = 0 := by simpa [hz.ne'] using k3
  exact ⟨by linarith, by linarith⟩

/-- C160: the aspect ratio of a triangle is half the ratio of its two radii; it is at least 1, and 1 for an equilateral triangle only;
for aligned points it is 1000000. -/
theorem C160_aspect_ratio (t : Tri2) :
    (t.Proper → ∃ r R, t.incircleRadius = some r ∧ t.circumcircleRadius = some R ∧ t.aspectRatio = R / (2 * r) ∧ 1 ≤ t.aspectRatio ∧
      (t.aspectRatio = 1 ↔ V2.pointDistance t.p1 t.p2 = V2.pointDistance t.p1 t.p3 ∧
        V2.pointDistance t.p1 t.p3 = V2.pointDistance t.p2 t.p3)) ∧
    (¬ t.Proper → t.aspectRatio = 1000000) := by
  obtain ⟨a, ha⟩ : ∃ a, a = V2.pointDistance t.p1 t.p2 := ⟨_, rfl⟩
  obtain ⟨b, hb⟩ : ∃ a, a = V2.pointDistance t.p1 t.p3 := ⟨_, rfl⟩
  obtain ⟨c, hc⟩ : ∃ a, a = V2.pointDistance t.p2 t.p3 := ⟨_, rfl⟩
  have hh := heron t.p1 t.p2 t.p3 ha hb hc
  rw [← area_sq] at hh
  constructor
  · intro h
    obtain ⟨pa, pb, pc, s1, s2, s3⟩ := proper_sides h ha hb hc
    have hA := area_pos h
    have hasp : t.aspectRatio = a * b * c / ((b + c - a) * (a + c - b) * (a + b - c)) := by
      unfold Tri2.aspectRatio
      dsimp only
      rw [← ha, ← hb, ← hc]
      have k1 : 1 / 2 * (a + b + c) - a = (b + c - a) / 2 := by ring
      have k2 : 1 / 2 * (a + b + c) - b = (a + c - b) / 2 := by ring
      have k3 : 1 / 2 * (a + b + c) - c = (a + b - c) / 2 := by ring
      rw [k1, k2, k3, if_neg (by push Not; exact ⟨by positivity, by positivity, by positivity⟩)]
      field_simp
      norm_num
    refine ⟨2 * t.area / (a + b + c), a * b * c / (t.area * 4), ?_, ?_, ?_, ?_, ?_⟩
    · unfold Tri2.incircleRadius
      dsimp only
      rw [← ha, ← hb, ← hc, if_neg (by positivity)]
    · unfold Tri2.circumcircleRadius
      dsimp only
      rw [← ha, ← hb, ← hc, if_neg (by positivity)]
    · rw [hasp]
      have e : a * b * c / (t.area * 4) / (2 * (2 * t.area / (a + b + c))) = a * b * c * (a + b + c) / (4 * (4 * t.area ^ 2)) := by
        field_simp; ring
      rw [e, hh]
      field_simp
    · rw [hasp, le_div_iff₀ (by positivity), one_mul]
      have := (schur s1 s2 s3).1
      nlinarith
    · rw [hasp, div_eq_one_iff_eq (by positivity), ← ha, ← hb, ← hc]
      constructor
      · intro e
        obtain ⟨f1, f2⟩ := (schur s1 s2 s3).2 (by linear_combination -8 * e)
        exact ⟨by linarith, by linarith⟩
      · rintro ⟨rfl, rfl⟩
        ring
  · intro h
    unfold Tri2.Proper at h
    push Not at h
    rw [area_sq, h] at hh
    unfold Tri2.aspectRatio
    dsimp only
    rw [← ha, ← hb, ← hc, if_pos]
    have n0 : 0 ≤ a := by rw [ha]; exact dist_nonneg _ _
    have n1 : 0 ≤ b := by rw [hb]; exact dist_nonneg _ _
    have n2 : 0 ≤ c := by rw [hc]; exact dist_nonneg _ _
    by_contra hcon
    push Not at hcon
    obtain ⟨k1, k2, k3⟩ := hcon
    have z : (a + b + c) * (b + c - a) * (a + c - b) * (a + b - c) = 0 := by rw [← hh]; ring
    have z0 : a + b + c ≠ 0 := by
      intro e
      exact k1 (by linarith)
    rcases mul_eq_zero.mp z with z | z
    · rcases mul_eq_zero.mp z with z | z
      · rcases mul_eq_zero.mp z with z | z
        · exact z0 z
        · exact k1 (by linarith)
      · exact k2 (by linarith)
    · exact k3 (by linarith)

/-- C160: the ratios of the radii to the length of the triangle: the one of the inscribed circle is at most that of an equilateral triangle
(`1 / (6 √3)`), the other one is at least twice as large, and their quotient is twice the aspect ratio. -/
theorem C160_ratios (t : Tri2) (h : t.Proper) :
    ∃ i c, t.ratioIncircle = some i ∧ t.ratioCircum = some c ∧ 0 < i ∧ 108 * i ^ 2 ≤ 1 ∧ 2 * i ≤ c ∧ c / i = 2 * t.aspectRatio := by
  obtain ⟨r, R, hr, hR, hasp, h1, -⟩ := (C160_aspect_ratio t).1 h
  obtain ⟨r', hr', hr0, -⟩ := C160_incircle t h
  obtain rfl : r = r' := by rw [hr] at hr'; exact Option.some.inj hr'
  obtain ⟨a, ha⟩ : ∃ a, a = V2.pointDistance t.p1 t.p2 := ⟨_, rfl⟩
  obtain ⟨b, hb⟩ : ∃ a, a = V2.pointDistance t.p1 t.p3 := ⟨_, rfl⟩
  obtain ⟨c, hc⟩ : ∃ a, a = V2.pointDistance t.p2 t.p3 := ⟨_, rfl⟩
  obtain ⟨pa, pb, pc, s1, s2, s3⟩ := proper_sides h ha hb hc
  have hlen : t.length = a + b + c := by
    unfold Tri2.length
    rw [dist_comm t.p3 t.p1, ← ha, ← hb, ← hc]
    simp; ring
  have hL : 0 < a + b + c := by positivity
  have hrr : r = 2 * t.area / (a + b + c) := by
    unfold Tri2.incircleRadius at hr
    dsimp only at hr
    rw [← ha, ← hb, ← hc, if_neg (by positivity)] at hr
    exact (Option.some.inj hr).symm
  refine ⟨r / (a + b + c), R / (a + b + c), ?_, ?_, by positivity, ?_, ?_, ?_⟩
  · unfold Tri2.ratioIncircle
    rw [hr, Option.bind_some, hlen, if_neg hL.ne']
  · unfold Tri2.ratioCircum
    rw [hR, Option.bind_some, hlen, if_neg hL.ne']
  · have hh := heron t.p1 t.p2 t.p3 ha hb hc
    rw [← area_sq] at hh
    rw [hrr]
    have e : 108 * (2 * t.area / (a + b + c) / (a + b + c)) ^ 2 = 27 * (4 * (4 * t.area ^ 2)) / (a + b + c) ^ 4 := by
      field_simp; ring
    rw [e, hh, div_le_one (by positivity)]
    -- mean inequality for the three differences, whose sum is the length
    have amgm : 27 * ((b + c - a) * (a + c - b) * (a + b - c)) ≤ (a + b + c) ^ 3 := by
      have : a + b + c = (b + c - a) + (a + c - b) + (a + b - c) := by ring
      rw [this]
      generalize b + c - a = x at *
      generalize a + c - b = y at *
      generalize a + b - c = z at *
      nlinarith [mul_nonneg s1.le (sq_nonneg (y - z)), mul_nonneg s2.le (sq_nonneg (x - z)), mul_nonneg s3.le (sq_nonneg (x - y)),
        mul_nonneg (add_nonneg (add_nonneg s1.le s2.le) s3.le) (sq_nonneg (x - y)), mul_nonneg (add_nonneg (add_nonneg s1.le s2.le) s3.le) (sq_nonneg (y - z)),
        mul_nonneg (add_nonneg (add_nonneg s1.le s2.le) s3.le) (sq_nonneg (x - z))]
    nlinarith
  · rw [← mul_div_assoc]
    apply div_le_div_of_nonneg_right _ hL.le
    rw [hasp, le_div_iff₀ (by positivity)] at h1
    linarith
  · rw [hasp]; field_simp

/-- The right triangle of sides 3, 4, 5: radii 1 and 5/2. -/
example : (⟨⟨0, 0⟩, ⟨3, 0⟩, ⟨0, 4⟩⟩ : Tri2).Proper := by norm_num [Tri2.Proper, V2.cross]

end Volmdlr.TriCircle
