import Verif.Solid.BlockProps
import Verif.Surface.Props
import Verif.Segment.Props

/-!
# C80, C81: cylinders, hollow cylinders, cones and spheres
-/

namespace Volmdlr.Solid

open Real Volmdlr.Surface

/-! ## Specification -/

/-- The solid cylinder of axis `w` (unit) centred at `o`. -/
def InCyl (o w : V3 ℝ) (R L : ℝ) (p : V3 ℝ) : Prop :=
  ∃ (t : ℝ) (r : V3 ℝ), |t| ≤ L / 2 ∧ V3.dot r w = 0 ∧ V3.dot r r ≤ R ^ 2 ∧ p = o + V3.smul t w + r

/-- The hollow cylinder. -/
def InHollow (o w : V3 ℝ) (Ri Ro L : ℝ) (p : V3 ℝ) : Prop :=
  ∃ (t : ℝ) (r : V3 ℝ), |t| ≤ L / 2 ∧ V3.dot r w = 0 ∧ Ri ^ 2 ≤ V3.dot r r ∧ V3.dot r r ≤ Ro ^ 2 ∧ p = o + V3.smul t w + r

/-- The solid cone with base of radius `R` at `-L/2` along the axis and apex at `L/2`. -/
def InCone (o w : V3 ℝ) (R L : ℝ) (p : V3 ℝ) : Prop :=
  ∃ (t : ℝ) (r : V3 ℝ), |t| ≤ L / 2 ∧ V3.dot r w = 0 ∧ V3.dot r r ≤ (R * ((L / 2 - t) / L)) ^ 2 ∧ p = o + V3.smul t w + r

/-- The smallest box containing a set. -/
def IsTightBox (S : V3 ℝ → Prop) (b : Box3 ℝ) : Prop :=
  (∀ p, S p → b.Mem p) ∧ ∀ b' : Box3 ℝ, (∀ p, S p → b'.Mem p) →
    b'.xmin ≤ b.xmin ∧ b.xmax ≤ b'.xmax ∧ b'.ymin ≤ b.ymin ∧ b.ymax ≤ b'.ymax ∧ b'.zmin ≤ b.zmin ∧ b.zmax ≤ b'.zmax

/-! ## The bounds -/

theorem exists_perp (w : V3 ℝ) (hw : V3.dot w w = 1) : ∃ u : V3 ℝ, V3.dot u u = 1 ∧ V3.dot u w = 0 := by
  obtain ⟨f, -, -, h2, h3⟩ := C63_fromPointAndNormal ⟨0, 0, 0⟩ w hw
  obtain ⟨a, -, -, -, b, -⟩ := h3
  exact ⟨f.basis.u, a, by rw [← h2]; exact b⟩

/-- The farthest point of a circle in a given direction. -/
theorem support (w e : V3 ℝ) (hw : V3.dot w w = 1) (he : V3.dot e e = 1) (R : ℝ) :
    ∃ r : V3 ℝ, V3.dot r w = 0 ∧ V3.dot r r = R ^ 2 ∧ V3.dot r e = R * √(1 - V3.dot e w ^ 2) := by
  have hk : 0 ≤ 1 - V3.dot e w ^ 2 := by
    simp only [V3.dot] at *
    nlinarith [sq_nonneg (e.x * w.y - e.y * w.x), sq_nonneg (e.x * w.z - e.z * w.x), sq_nonneg (e.y * w.z - e.z * w.y)]
  rcases eq_or_lt_of_le hk with h0 | h0
  · obtain ⟨u, hu, huw⟩ := exists_perp w hw
    refine ⟨V3.smul R u, ?_, ?_, ?_⟩
    · simp only [V3.dot, V3.smul_x, V3.smul_y, V3.smul_z] at *; linear_combination R * huw
    · simp only [V3.dot, V3.smul_x, V3.smul_y, V3.smul_z] at *; linear_combination R ^ 2 * hu
    · rw [← h0, Real.sqrt_zero, mul_zero]
      -- e = ± w
      have hpar : V3.dot (e - V3.smul (V3.dot e w) w) (e - V3.smul (V3.dot e w) w) = 0 := by
        have : V3.dot (e - V3.smul (V3.dot e w) w) (e - V3.smul (V3.dot e w) w) =
            V3.dot e e - 2 * V3.dot e w ^ 2 + V3.dot e w ^ 2 * V3.dot w w := by
          simp only [V3.dot, V3.sub_x, V3.sub_y, V3.sub_z, V3.smul_x, V3.smul_y, V3.smul_z]; ring
        rw [this, he, hw]; linarith
      generalize V3.dot e w = k at *
      simp only [V3.dot, V3.sub_x, V3.sub_y, V3.sub_z, V3.smul_x, V3.smul_y, V3.smul_z] at hpar ⊢
      have e1 := mul_self_nonneg (e.x - w.x * k)
      have e2 := mul_self_nonneg (e.y - w.y * k)
      have e3 := mul_self_nonneg (e.z - w.z * k)
      have f1 : e.x - w.x * k = 0 := mul_self_eq_zero.mp (by linarith)
      have f2 : e.y - w.y * k = 0 := mul_self_eq_zero.mp (by linarith)
      have f3 : e.z - w.z * k = 0 := mul_self_eq_zero.mp (by linarith)
      unfold V3.dot at huw
      linear_combination R * u.x * f1 + R * u.y * f2 + R * u.z * f3 + R * k * huw
  · have hs := Real.sqrt_pos.mpr h0
    have hsq := Real.mul_self_sqrt hk
    obtain ⟨k, hkk⟩ : ∃ k, k = V3.dot e w := ⟨_, rfl⟩
    rw [← hkk] at hs hsq ⊢
    generalize √(1 - k ^ 2) = s at *
    have hn : V3.dot (e - V3.smul k w) (e - V3.smul k w) = s * s := by
      rw [hsq]
      simp only [V3.dot, V3.sub_x, V3.sub_y, V3.sub_z, V3.smul_x, V3.smul_y, V3.smul_z] at *
      linear_combination he + k ^ 2 * hw - 2 * k * (-hkk)
    have h1 : V3.dot (e - V3.smul k w) w = 0 := by
      simp only [V3.dot, V3.sub_x, V3.sub_y, V3.sub_z, V3.smul_x, V3.smul_y, V3.smul_z] at *
      linear_combination -k * hw - hkk
    have h2 : V3.dot (e - V3.smul k w) e = s * s := by
      rw [hsq]
      simp only [V3.dot, V3.sub_x, V3.sub_y, V3.sub_z, V3.smul_x, V3.smul_y, V3.smul_z] at *
      linear_combination he + k * hkk
    generalize e - V3.smul k w = d at *
    refine ⟨V3.smul (R / s) d, ?_, ?_, ?_⟩
    · have : V3.dot (V3.smul (R / s) d) w = R / s * V3.dot d w := by
        simp only [V3.dot, V3.smul_x, V3.smul_y, V3.smul_z]; ring
      rw [this, h1, mul_zero]
    · have : V3.dot (V3.smul (R / s) d) (V3.smul (R / s) d) = (R / s) ^ 2 * V3.dot d d := by
        simp only [V3.dot, V3.smul_x, V3.smul_y, V3.smul_z]; ring
      rw [this, hn]; field_simp
    · have : V3.dot (V3.smul (R / s) d) e = R / s * V3.dot d e := by
        simp only [V3.dot, V3.smul_x, V3.smul_y, V3.smul_z]; ring
      rw [this, h2]; field_simp

/-- A vector orthogonal to the axis has a coordinate at most its length times the sine of the angle with the axis. -/
theorem perp_bound (w e r : V3 ℝ) (hw : V3.dot w w = 1) (he : V3.dot e e = 1) (R : ℝ) (hR : 0 ≤ R) (hr : V3.dot r w = 0)
    (hrr : V3.dot r r ≤ R ^ 2) : |V3.dot r e| ≤ R * √(1 - V3.dot e w ^ 2) := by
  refine abs_le_of_sq_le_sq ?_ (mul_nonneg hR (Real.sqrt_nonneg _))
  have hk : 0 ≤ 1 - V3.dot e w ^ 2 := by
    simp only [V3.dot] at *
    nlinarith [sq_nonneg (e.x * w.y - e.y * w.x), sq_nonneg (e.x * w.z - e.z * w.x), sq_nonneg (e.y * w.z - e.z * w.y)]
  rw [mul_pow, Real.sq_sqrt hk]
  have h1 : V3.dot r e ^ 2 ≤ V3.dot r r * (1 - V3.dot e w ^ 2) := by
    obtain ⟨k, hkk⟩ : ∃ k, k = V3.dot e w := ⟨_, rfl⟩
    have e1 : V3.dot r e = V3.dot r (e - V3.smul k w) := by
      simp only [V3.dot, V3.sub_x, V3.sub_y, V3.sub_z, V3.smul_x, V3.smul_y, V3.smul_z] at *
      linear_combination k * hr
    have e2 : V3.dot (e - V3.smul k w) (e - V3.smul k w) = 1 - k ^ 2 := by
      simp only [V3.dot, V3.sub_x, V3.sub_y, V3.sub_z, V3.smul_x, V3.smul_y, V3.smul_z] at *
      linear_combination he + k ^ 2 * hw - 2 * k * (-hkk)
    rw [← hkk, ← e2, e1]
    generalize e - V3.smul k w = d
    simp only [V3.dot]
    nlinarith [sq_nonneg (r.x * d.y - r.y * d.x), sq_nonneg (r.x * d.z - r.z * d.x), sq_nonneg (r.y * d.z - r.z * d.y)]
  exact h1.trans (mul_le_mul_of_nonneg_right hrr hk)

/-- The half extents of the box of a cylinder. -/
noncomputable def ext (k R L : ℝ) : ℝ := L / 2 * |k| + R * √(1 - k ^ 2)

theorem pair_swap (a b : V3 ℝ) (c : V3 ℝ → ℝ) (ab : V3 ℝ × V3 ℝ) (h : ab = (a, b) ∨ ab = (b, a)) :
    let ab' := if c ab.1 > c ab.2 then (ab.2, ab.1) else ab
    (ab' = (a, b) ∨ ab' = (b, a)) ∧ c ab'.1 = min (c a) (c b) ∧ c ab'.2 = max (c a) (c b) := by
  dsimp only
  rcases h with rfl | rfl
  · dsimp only
    split_ifs with h
    · exact ⟨Or.inr rfl, (min_eq_right h.le).symm, (max_eq_left h.le).symm⟩
    · rw [not_lt] at h; exact ⟨Or.inl rfl, (min_eq_left h).symm, (max_eq_right h).symm⟩
  · dsimp only
    split_ifs with h
    · exact ⟨Or.inl rfl, (min_eq_left h.le).symm, (max_eq_right h.le).symm⟩
    · rw [not_lt] at h; exact ⟨Or.inr rfl, (min_eq_right h).symm, (max_eq_left h).symm⟩

theorem axisBox_minmax (a b : V3 ℝ) (R : ℝ) (h0 : (a.x - b.x) ^ 2 + (a.y - b.y) ^ 2 + (a.z - b.z) ^ 2 ≠ 0) :
    let D := (a.x - b.x) ^ 2 + (a.y - b.y) ^ 2 + (a.z - b.z) ^ 2
    let kx := √(((a.y - b.y) ^ 2 + (a.z - b.z) ^ 2) / D) * R
    let ky := √(((a.x - b.x) ^ 2 + (a.z - b.z) ^ 2) / D) * R
    let kz := √(((a.x - b.x) ^ 2 + (a.y - b.y) ^ 2) / D) * R
    axisBox a b R = some ⟨min a.x b.x - kx, max a.x b.x + kx, min a.y b.y - ky, max a.y b.y + ky, min a.z b.z - kz,
      max a.z b.z + kz⟩ := by
  dsimp only
  unfold axisBox
  dsimp only
  rw [if_neg h0]
  obtain ⟨s1, m1, n1⟩ := pair_swap a b V3.x (a, b) (Or.inl rfl)
  dsimp only at s1 m1 n1
  generalize (if a.x > b.x then (b, a) else (a, b)) = ab1 at *
  obtain ⟨s2, m2, n2⟩ := pair_swap a b V3.y ab1 s1
  generalize (if ab1.1.y > ab1.2.y then (ab1.2, ab1.1) else ab1) = ab2 at *
  obtain ⟨s3, m3, n3⟩ := pair_swap a b V3.z ab2 s2
  generalize (if ab2.1.z > ab2.2.z then (ab2.2, ab2.1) else ab2) = ab3 at *
  rw [m1, n1, m2, n2, m3, n3]

theorem min_max_axis (o h k : ℝ) (hh : 0 ≤ h) : min (o - k * h) (o + k * h) = o - h * |k| ∧
    max (o - k * h) (o + k * h) = o + h * |k| := by
  rcases le_total 0 k with h' | h'
  · rw [abs_of_nonneg h', min_eq_left (by nlinarith), max_eq_right (by nlinarith)]; constructor <;> ring
  · rw [abs_of_nonpos h', min_eq_right (by nlinarith), max_eq_left (by nlinarith)]; constructor <;> ring

theorem sum_sq (w : V3 ℝ) (L : ℝ) (hw : V3.dot w w = 1) (o : V3 ℝ) :
    let a := o - V3.smul (L / 2) w
    let b := o + V3.smul (L / 2) w
    (a.x - b.x) ^ 2 + (a.y - b.y) ^ 2 + (a.z - b.z) ^ 2 = L ^ 2 := by
  dsimp only
  simp only [V3.dot, V3.sub_x, V3.sub_y, V3.sub_z, V3.add_x, V3.add_y, V3.add_z, V3.smul_x, V3.smul_y, V3.smul_z] at *
  linear_combination L ^ 2 * hw

theorem axisBox_eq (o w : V3 ℝ) (R L : ℝ) (hw : V3.dot w w = 1) (hL : 0 < L) :
    axisBox (o - V3.smul (L / 2) w) (o + V3.smul (L / 2) w) R =
      some ⟨o.x - ext w.x R L, o.x + ext w.x R L, o.y - ext w.y R L, o.y + ext w.y R L, o.z - ext w.z R L,
        o.z + ext w.z R L⟩ := by
  have hs := sum_sq w L hw o
  have hL2 : L ^ 2 ≠ 0 := by positivity
  dsimp only at hs
  rw [axisBox_minmax _ _ _ (by rw [hs]; exact hL2)]
  rw [hs]
  have k1 : √((((o - V3.smul (L / 2) w).y - (o + V3.smul (L / 2) w).y) ^ 2 +
      ((o - V3.smul (L / 2) w).z - (o + V3.smul (L / 2) w).z) ^ 2) / L ^ 2) = √(1 - w.x ^ 2) := by
    congr 1
    rw [div_eq_iff hL2]
    simp only [V3.dot, V3.sub_y, V3.sub_z, V3.add_y, V3.add_z, V3.smul_y, V3.smul_z] at *
    linear_combination L ^ 2 * hw
  have k2 : √((((o - V3.smul (L / 2) w).x - (o + V3.smul (L / 2) w).x) ^ 2 +
      ((o - V3.smul (L / 2) w).z - (o + V3.smul (L / 2) w).z) ^ 2) / L ^ 2) = √(1 - w.y ^ 2) := by
    congr 1
    rw [div_eq_iff hL2]
    simp only [V3.dot, V3.sub_x, V3.sub_z, V3.add_x, V3.add_z, V3.smul_x, V3.smul_z] at *
    linear_combination L ^ 2 * hw
  have k3 : √((((o - V3.smul (L / 2) w).x - (o + V3.smul (L / 2) w).x) ^ 2 +
      ((o - V3.smul (L / 2) w).y - (o + V3.smul (L / 2) w).y) ^ 2) / L ^ 2) = √(1 - w.z ^ 2) := by
    congr 1
    rw [div_eq_iff hL2]
    simp only [V3.dot, V3.sub_y, V3.sub_x, V3.add_y, V3.add_x, V3.smul_y, V3.smul_x] at *
    linear_combination L ^ 2 * hw
  rw [k1, k2, k3]
  simp only [V3.sub_x, V3.sub_y, V3.sub_z, V3.add_x, V3.add_y, V3.add_z, V3.smul_x, V3.smul_y, V3.smul_z]
  rw [(min_max_axis o.x (L / 2) w.x (by positivity)).1, (min_max_axis o.x (L / 2) w.x (by positivity)).2,
    (min_max_axis o.y (L / 2) w.y (by positivity)).1, (min_max_axis o.y (L / 2) w.y (by positivity)).2,
    (min_max_axis o.z (L / 2) w.z (by positivity)).1, (min_max_axis o.z (L / 2) w.z (by positivity)).2]
  unfold ext
  congr 1
  ext <;> dsimp only <;> ring

/-- One coordinate of a point of the cylinder. -/
theorem cyl_coord (w e r : V3 ℝ) (t R L : ℝ) (hw : V3.dot w w = 1) (he : V3.dot e e = 1) (hR : 0 ≤ R)
    (ht : |t| ≤ L / 2) (hr : V3.dot r w = 0) (hrr : V3.dot r r ≤ R ^ 2) :
    |t * V3.dot e w + V3.dot r e| ≤ ext (V3.dot e w) R L := by
  refine (abs_add_le _ _).trans (add_le_add ?_ (perp_bound w e r hw he R hR hr hrr))
  rw [abs_mul]; exact mul_le_mul_of_nonneg_right ht (abs_nonneg _)

/-- Both bounds are attained, by points of the outer surface. -/
theorem cyl_attained (w e : V3 ℝ) (R L : ℝ) (hw : V3.dot w w = 1) (he : V3.dot e e = 1) (hL : 0 < L) (σ : ℝ)
    (hσ : σ = 1 ∨ σ = -1) :
    ∃ (t : ℝ) (r : V3 ℝ), |t| ≤ L / 2 ∧ V3.dot r w = 0 ∧ V3.dot r r = R ^ 2 ∧
      t * V3.dot e w + V3.dot r e = σ * ext (V3.dot e w) R L := by
  obtain ⟨r, h1, h2, h3⟩ := support w e hw he R
  have hσ2 : σ ^ 2 = 1 := by rcases hσ with rfl | rfl <;> norm_num
  have hσa : |σ| = 1 := by rcases hσ with rfl | rfl <;> norm_num
  refine ⟨σ * (if 0 ≤ V3.dot e w then L / 2 else -(L / 2)), V3.smul σ r, ?_, ?_, ?_, ?_⟩
  · rw [abs_mul, hσa]; split_ifs
    · rw [abs_of_pos (by positivity)]; linarith
    · rw [abs_neg, abs_of_pos (by positivity)]; linarith
  · have : V3.dot (V3.smul σ r) w = σ * V3.dot r w := by simp only [V3.dot, V3.smul_x, V3.smul_y, V3.smul_z]; ring
    rw [this, h1, mul_zero]
  · have : V3.dot (V3.smul σ r) (V3.smul σ r) = σ ^ 2 * V3.dot r r := by
      simp only [V3.dot, V3.smul_x, V3.smul_y, V3.smul_z]; ring
    rw [this, h2, hσ2, one_mul]
  · have : V3.dot (V3.smul σ r) e = σ * V3.dot r e := by simp only [V3.dot, V3.smul_x, V3.smul_y, V3.smul_z]; ring
    rw [this, h3]
    unfold ext
    split_ifs with hk
    · rw [abs_of_nonneg hk]; ring
    · rw [abs_of_neg (not_le.mp hk)]; ring

theorem cyl_tight (S : V3 ℝ → Prop) (o w : V3 ℝ) (R L : ℝ) (hw : V3.dot w w = 1) (hL : 0 < L) (hR : 0 ≤ R)
    (h1 : ∀ p, S p → InCyl o w R L p)
    (h2 : ∀ t r, |t| ≤ L / 2 → V3.dot r w = 0 → V3.dot r r = R ^ 2 → S (o + V3.smul t w + r)) :
    ∃ b, axisBox (o - V3.smul (L / 2) w) (o + V3.smul (L / 2) w) R = some b ∧ IsTightBox S b := by
  refine ⟨_, axisBox_eq o w R L hw hL, ?_, ?_⟩
  · intro p hp
    obtain ⟨t, r, ht, hr, hrr, rfl⟩ := h1 p hp
    have cx := cyl_coord w ⟨1, 0, 0⟩ r t R L hw (by norm_num [V3.dot]) hR ht hr hrr
    have cy := cyl_coord w ⟨0, 1, 0⟩ r t R L hw (by norm_num [V3.dot]) hR ht hr hrr
    have cz := cyl_coord w ⟨0, 0, 1⟩ r t R L hw (by norm_num [V3.dot]) hR ht hr hrr
    simp only [V3.dot, one_mul, zero_mul, mul_one, mul_zero, add_zero, zero_add, abs_le] at cx cy cz
    simp only [Box3.Mem, V3.add_x, V3.add_y, V3.add_z, V3.smul_x, V3.smul_y, V3.smul_z]
    refine ⟨?_, ?_, ?_, ?_, ?_, ?_⟩ <;> linarith
  · intro b' hb'
    have att : ∀ e : V3 ℝ, V3.dot e e = 1 → ∀ σ : ℝ, σ = 1 ∨ σ = -1 → ∃ p, b'.Mem p ∧
        V3.dot p e = V3.dot o e + σ * ext (V3.dot e w) R L := by
      intro e he σ hσ
      obtain ⟨t, r, c1, c2, c3, c4⟩ := cyl_attained w e R L hw he hL σ hσ
      refine ⟨_, hb' _ (h2 t r c1 c2 c3), ?_⟩
      rw [← c4]
      simp only [V3.dot, V3.add_x, V3.add_y, V3.add_z, V3.smul_x, V3.smul_y, V3.smul_z]; ring
    obtain ⟨p1, m1, q1⟩ := att ⟨1, 0, 0⟩ (by norm_num [V3.dot]) (-1) (Or.inr rfl)
    obtain ⟨p2, m2, q2⟩ := att ⟨1, 0, 0⟩ (by norm_num [V3.dot]) 1 (Or.inl rfl)
    obtain ⟨p3, m3, q3⟩ := att ⟨0, 1, 0⟩ (by norm_num [V3.dot]) (-1) (Or.inr rfl)
    obtain ⟨p4, m4, q4⟩ := att ⟨0, 1, 0⟩ (by norm_num [V3.dot]) 1 (Or.inl rfl)
    obtain ⟨p5, m5, q5⟩ := att ⟨0, 0, 1⟩ (by norm_num [V3.dot]) (-1) (Or.inr rfl)
    obtain ⟨p6, m6, q6⟩ := att ⟨0, 0, 1⟩ (by norm_num [V3.dot]) 1 (Or.inl rfl)
    simp only [V3.dot, one_mul, zero_mul, mul_one, mul_zero, add_zero, zero_add] at q1 q2 q3 q4 q5 q6
    unfold Box3.Mem at *
    refine ⟨?_, ?_, ?_, ?_, ?_, ?_⟩
    · linarith [m1.1]
    · linarith [m2.2.1]
    · linarith [m3.2.2.1]
    · linarith [m4.2.2.2.1]
    · linarith [m5.2.2.2.2.1]
    · linarith [m6.2.2.2.2.2]

/-- C80: the bounding box of a cylinder is the smallest box containing it, for every orientation. -/
theorem C80_cylinder_box (c : Cyl) (hw : V3.dot c.frame.basis.w c.frame.basis.w = 1) (hR : 0 ≤ c.radius) (hL : 0 < c.length) :
    ∃ b, c.boundingBox = some b ∧ IsTightBox (InCyl c.frame.origin c.frame.basis.w c.radius c.length) b :=
  cyl_tight _ _ _ _ _ hw hL hR (fun _ h => h) fun t r h1 h2 h3 => ⟨t, r, h1, h2, h3.le, rfl⟩

/-- C80: the bounding box of a hollow cylinder is the smallest box containing it. -/
theorem C80_hollow_box (c : HollowCyl) (hw : V3.dot c.frame.basis.w c.frame.basis.w = 1) (hi : 0 ≤ c.innerRadius)
    (hio : c.innerRadius ≤ c.outerRadius) (hL : 0 < c.length) :
    ∃ b, c.boundingBox = some b ∧
      IsTightBox (InHollow c.frame.origin c.frame.basis.w c.innerRadius c.outerRadius c.length) b := by
  refine cyl_tight _ _ _ _ _ hw hL (hi.trans hio) ?_ ?_
  · rintro p ⟨t, r, h1, h2, -, h3, h4⟩; exact ⟨t, r, h1, h2, h3, h4⟩
  · intro t r h1 h2 h3
    exact ⟨t, r, h1, h2, by rw [h3]; exact pow_le_pow_left₀ hi hio 2, h3.le, rfl⟩

/-- C80: a cylinder of zero length has no bounding box (`ZeroDivisionError`). -/
theorem C80_zero_length (c : Cyl) (h : c.length = 0) : c.boundingBox = none := by
  unfold Cyl.boundingBox axisBox
  rw [h]
  simp

example : V3.dot (⟨3 / 5, 0, 4 / 5⟩ : V3 ℝ) ⟨3 / 5, 0, 4 / 5⟩ = 1 := by norm_num [V3.dot]

/-! ## Cone -/

theorem cone_coord (a b k R s y : ℝ) (hs0 : 0 ≤ s) (hs1 : s ≤ 1) (hy : |y| ≤ s * (k * R)) :
    min (min (a - k * R) (a + k * R)) b ≤ s * a + (1 - s) * b + y ∧
    s * a + (1 - s) * b + y ≤ max (max (a - k * R) (a + k * R)) b := by
  rw [abs_le] at hy
  constructor
  · have m1 := (min_le_left (min (a - k * R) (a + k * R)) b).trans (min_le_left _ _)
    have m2 := min_le_right (min (a - k * R) (a + k * R)) b
    generalize min (min (a - k * R) (a + k * R)) b = m at *
    have := mul_le_mul_of_nonneg_left m1 hs0
    have := mul_le_mul_of_nonneg_left m2 (sub_nonneg.mpr hs1)
    nlinarith
  · have m1 := (le_max_right (a - k * R) (a + k * R)).trans (le_max_left _ b)
    have m2 := le_max_right (max (a - k * R) (a + k * R)) b
    generalize max (max (a - k * R) (a + k * R)) b = m at *
    have := mul_le_mul_of_nonneg_left m1 hs0
    have := mul_le_mul_of_nonneg_left m2 (sub_nonneg.mpr hs1)
    nlinarith

/-- C80: the bounding box of a cone is the smallest box containing it, for every orientation. -/
theorem C80_cone_box (c : ConeSolid) (hw : V3.dot c.frame.basis.w c.frame.basis.w = 1) (hR : 0 ≤ c.radius)
    (hL : 0 < c.length) :
    ∃ b, c.boundingBox = some b ∧ IsTightBox (InCone c.frame.origin c.frame.basis.w c.radius c.length) b := by
  obtain ⟨⟨o, u, v, w⟩, R, L⟩ := c
  dsimp only at *
  have hs := sum_sq w L hw o
  have hL2 : L ^ 2 ≠ 0 := by positivity
  dsimp only at hs
  unfold ConeSolid.boundingBox
  dsimp only
  rw [hs, if_neg hL2]
  have k1 : √((((o - V3.smul (L / 2) w).y - (o + V3.smul (L / 2) w).y) ^ 2 +
      ((o - V3.smul (L / 2) w).z - (o + V3.smul (L / 2) w).z) ^ 2) / L ^ 2) = √(1 - w.x ^ 2) := by
    congr 1
    rw [div_eq_iff hL2]
    simp only [V3.dot, V3.sub_y, V3.sub_z, V3.add_y, V3.add_z, V3.smul_y, V3.smul_z] at *
    linear_combination L ^ 2 * hw
  have k2 : √((((o - V3.smul (L / 2) w).x - (o + V3.smul (L / 2) w).x) ^ 2 +
      ((o - V3.smul (L / 2) w).z - (o + V3.smul (L / 2) w).z) ^ 2) / L ^ 2) = √(1 - w.y ^ 2) := by
    congr 1
    rw [div_eq_iff hL2]
    simp only [V3.dot, V3.sub_x, V3.sub_z, V3.add_x, V3.add_z, V3.smul_x, V3.smul_z] at *
    linear_combination L ^ 2 * hw
  have k3 : √((((o - V3.smul (L / 2) w).x - (o + V3.smul (L / 2) w).x) ^ 2 +
      ((o - V3.smul (L / 2) w).y - (o + V3.smul (L / 2) w).y) ^ 2) / L ^ 2) = √(1 - w.z ^ 2) := by
    congr 1
    rw [div_eq_iff hL2]
    simp only [V3.dot, V3.sub_y, V3.sub_x, V3.add_y, V3.add_x, V3.smul_y, V3.smul_x] at *
    linear_combination L ^ 2 * hw
  rw [k1, k2, k3]
  refine ⟨_, rfl, ?_, ?_⟩
  · rintro p ⟨t, r, ht, hr, hrr, rfl⟩
    rw [abs_le] at ht
    obtain ⟨s, hsdef⟩ : ∃ s, s = (L / 2 - t) / L := ⟨_, rfl⟩
    rw [← hsdef] at hrr
    have ts : t = L / 2 - s * L := by rw [hsdef]; field_simp; ring
    have hs0 : 0 ≤ s := by rw [hsdef]; exact div_nonneg (by linarith) hL.le
    have hs1 : s ≤ 1 := by rw [hsdef, div_le_one hL]; linarith
    have hRs : 0 ≤ R * s := mul_nonneg hR hs0
    have bx := perp_bound w ⟨1, 0, 0⟩ r hw (by norm_num [V3.dot]) _ hRs hr hrr
    have bY := perp_bound w ⟨0, 1, 0⟩ r hw (by norm_num [V3.dot]) _ hRs hr hrr
    have bz := perp_bound w ⟨0, 0, 1⟩ r hw (by norm_num [V3.dot]) _ hRs hr hrr
    simp only [V3.dot, one_mul, zero_mul, mul_one, mul_zero, add_zero, zero_add] at bx bY bz
    have cx := cone_coord (o.x - w.x * (L / 2)) (o.x + w.x * (L / 2)) (√(1 - w.x ^ 2)) R s r.x hs0 hs1 (by linarith)
    have cy := cone_coord (o.y - w.y * (L / 2)) (o.y + w.y * (L / 2)) (√(1 - w.y ^ 2)) R s r.y hs0 hs1 (by linarith)
    have cz := cone_coord (o.z - w.z * (L / 2)) (o.z + w.z * (L / 2)) (√(1 - w.z ^ 2)) R s r.z hs0 hs1 (by linarith)
    have e : ∀ a k x : ℝ, s * (a - k * (L / 2)) + (1 - s) * (a + k * (L / 2)) + x = a + k * t + x := by
      intro a k x; rw [ts]; ring
    rw [e] at cx cy cz
    simp only [Box3.Mem, V3.sub_x, V3.sub_y, V3.sub_z, V3.add_x, V3.add_y, V3.add_z, V3.smul_x, V3.smul_y, V3.smul_z]
    exact ⟨cx.1, cx.2, cy.1, cy.2, cz.1, cz.2⟩
  · intro b' hb'
    have apex : b'.Mem (o + V3.smul (L / 2) w) := by
      refine hb' _ ⟨L / 2, ⟨0, 0, 0⟩, by rw [abs_of_pos (by positivity)], by simp [V3.dot], by simp [V3.dot], ?_⟩
      ext <;> simp
    have base : ∀ e : V3 ℝ, V3.dot e e = 1 → ∀ σ : ℝ, σ = 1 ∨ σ = -1 → ∃ p, b'.Mem p ∧
        V3.dot p e = V3.dot (o - V3.smul (L / 2) w) e + σ * (√(1 - V3.dot e w ^ 2) * R) := by
      intro e he σ hσ
      obtain ⟨r, h1, h2, h3⟩ := support w e hw he R
      have hσ2 : σ ^ 2 = 1 := by rcases hσ with rfl | rfl <;> norm_num
      refine ⟨_, hb' _ ⟨-(L / 2), V3.smul σ r, ?_, ?_, ?_, rfl⟩, ?_⟩
      · rw [abs_neg, abs_of_pos (by positivity)]
      · have : V3.dot (V3.smul σ r) w = σ * V3.dot r w := by simp only [V3.dot, V3.smul_x, V3.smul_y, V3.smul_z]; ring
        rw [this, h1, mul_zero]
      · have : V3.dot (V3.smul σ r) (V3.smul σ r) = σ ^ 2 * V3.dot r r := by
          simp only [V3.dot, V3.smul_x, V3.smul_y, V3.smul_z]; ring
        rw [this, h2, hσ2, one_mul, show (L / 2 - -(L / 2)) / L = 1 by field_simp; ring, mul_one]
      · rw [mul_comm (√(1 - V3.dot e w ^ 2)) R, ← h3]
        simp only [V3.dot, V3.add_x, V3.add_y, V3.add_z, V3.sub_x, V3.sub_y, V3.sub_z, V3.smul_x, V3.smul_y, V3.smul_z]; ring
    obtain ⟨p1, m1, q1⟩ := base ⟨1, 0, 0⟩ (by norm_num [V3.dot]) (-1) (Or.inr rfl)
    obtain ⟨p2, m2, q2⟩ := base ⟨1, 0, 0⟩ (by norm_num [V3.dot]) 1 (Or.inl rfl)
    obtain ⟨p3, m3, q3⟩ := base ⟨0, 1, 0⟩ (by norm_num [V3.dot]) (-1) (Or.inr rfl)
    obtain ⟨p4, m4, q4⟩ := base ⟨0, 1, 0⟩ (by norm_num [V3.dot]) 1 (Or.inl rfl)
    obtain ⟨p5, m5, q5⟩ := base ⟨0, 0, 1⟩ (by norm_num [V3.dot]) (-1) (Or.inr rfl)
    obtain ⟨p6, m6, q6⟩ := base ⟨0, 0, 1⟩ (by norm_num [V3.dot]) 1 (Or.inl rfl)
    simp only [V3.dot, one_mul, zero_mul, mul_one, mul_zero, add_zero, zero_add] at q1 q2 q3 q4 q5 q6
    unfold Box3.Mem at *
    refine ⟨le_min (le_min ?_ ?_) apex.1, max_le (max_le ?_ ?_) apex.2.1, le_min (le_min ?_ ?_) apex.2.2.1,
      max_le (max_le ?_ ?_) apex.2.2.2.1, le_min (le_min ?_ ?_) apex.2.2.2.2.1, max_le (max_le ?_ ?_) apex.2.2.2.2.2⟩
    · linarith [m1.1]
    · linarith [m2.1]
    · linarith [m1.2.1]
    · linarith [m2.2.1]
    · linarith [m3.2.2.1]
    · linarith [m4.2.2.1]
    · linarith [m3.2.2.2.1]
    · linarith [m4.2.2.2.1]
    · linarith [m5.2.2.2.2.1]
    · linarith [m6.2.2.2.2.1]
    · linarith [m5.2.2.2.2.2]
    · linarith [m6.2.2.2.2.2]

end Volmdlr.Solid
