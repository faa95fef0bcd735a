import Verif.Fillet.RadiiProps

/-!
# C86: offset of a rounded polyline
-/

namespace Volmdlr.Fillet

open Real Volmdlr.Angle Volmdlr.Arc

/-! ## Specification -/

/-- Signed distance of `q` from the line through `a` with unit direction `t`, positive on the left. -/
def leftDist (a t q : V2 ℝ) : ℝ := V2.cross t (q - a)

/-- What a user expects: the offset of a proper corner is at the signed distance `offset` from the two lines of the corner
(`prev` and `next` are the unit vectors from the corner to the previous and to the next points: the incoming line has the
direction `-prev`). -/
def C86_corner_full_statement : Prop :=
  ∀ (p prev next : V2 ℝ) (offset : ℝ), V2.dot prev prev = 1 → V2.dot next next = 1 → V2.cross prev next ≠ 0 →
    ∃ q c, offsetCorner p prev next offset = some (q, c) ∧ leftDist p (-prev) q = offset ∧ leftDist p next q = offset

/-! ## One corner -/

theorem unitVector_unit {u : V2 ℝ} (h : V2.dot u u = 1) : V2.unitVector u = some u := by
  have : V2.norm u = 1 := by
    unfold V2.norm; simp only [V2.dot] at h; rw [h, sqrt_one]
  unfold V2.unitVector
  rw [this, if_neg one_ne_zero]
  congr 1
  ext <;> simp

/-- Everything of a corner in terms of the half angle `α/2` between the two normals, `c` its cosine and `s` its sine. -/
theorem offsetCorner_eq (p prev next : V2 ℝ) (offset : ℝ) (h1 : V2.dot prev prev = 1) (h2 : V2.dot next next = 1)
    (hx : V2.dot prev next ≠ 1) :
    ∃ (c s : ℝ) (b : V2 ℝ) (chk : Bool), 0 < c ∧ 0 ≤ s ∧ s ^ 2 + c ^ 2 = 1 ∧ 2 * c ^ 2 = 1 - V2.dot prev next ∧
      V2.norm (prev + next) = 2 * s ∧
      offsetCorner p prev next offset = some (p + V2.smul (offset / c) b, chk) ∧
      ((isClose2 (prev + next) ⟨0, 0⟩ (1 / 10 ^ 6) ∧ b = V2.normalVector next ∧ chk = false) ∨
        (¬ isClose2 (prev + next) ⟨0, 0⟩ (1 / 10 ^ 6) ∧ 0 < s ∧ (chk = true ↔ V2.cross prev next > 0) ∧
          V2.smul (2 * s) b = if V2.cross prev next > 0 then -(prev + next) else prev + next)) := by
  have hle : -1 ≤ V2.dot prev next ∧ V2.dot prev next ≤ 1 := by
    have : V2.dot prev next ^ 2 + V2.cross prev next ^ 2 = 1 := by
      simp only [V2.dot, V2.cross] at *
      linear_combination (next.x * next.x + next.y * next.y) * h1 + h2
    constructor <;> nlinarith [sq_nonneg (V2.cross prev next)]
  have hlt : V2.dot prev next < 1 := lt_of_le_of_ne hle.2 hx
  have hn1 : V2.dot (V2.normalVector prev) (V2.normalVector prev) = 1 := by
    simp only [V2.dot, V2.normalVector] at *; linarith
  have hn2 : V2.dot (V2.normalVector next) (V2.normalVector next) = 1 := by
    simp only [V2.dot, V2.normalVector] at *; linarith
  have hdot : V2.dot (-V2.normalVector prev) (V2.normalVector next) = -V2.dot prev next := by
    simp only [V2.dot, V2.normalVector, V2.neg_x, V2.neg_y]; ring
  obtain ⟨c, hc⟩ : ∃ c, c = cos (arccos (-V2.dot prev next) / 2) := ⟨_, rfl⟩
  obtain ⟨s, hs⟩ : ∃ s, s = sin (arccos (-V2.dot prev next) / 2) := ⟨_, rfl⟩
  have a0 := arccos_nonneg (-V2.dot prev next)
  have a1 : arccos (-V2.dot prev next) < π := lt_of_le_of_ne (arccos_le_pi _) (by
    intro h; rw [arccos_eq_pi] at h; linarith)
  have hcpos : 0 < c := by rw [hc]; exact cos_pos_of_mem_Ioo ⟨by linarith, by linarith⟩
  have hspos : 0 ≤ s := by rw [hs]; exact sin_nonneg_of_nonneg_of_le_pi (by linarith) (by linarith)
  have hsc : s ^ 2 + c ^ 2 = 1 := by rw [hs, hc]; exact sin_sq_add_cos_sq _
  have hc2 : 2 * c ^ 2 = 1 - V2.dot prev next := by
    have e := cos_sq (arccos (-V2.dot prev next) / 2)
    rw [mul_div_cancel₀ _ (two_ne_zero), cos_arccos (by linarith) (by linarith)] at e
    rw [hc]; linarith
  have hnorm : V2.norm (prev + next) = 2 * s := by
    have h0 : 0 ≤ V2.norm (prev + next) := sqrt_nonneg _
    refine (sq_eq_sq₀ h0 (by positivity)).mp ?_
    rw [V2.norm_sq']
    simp only [V2.dot, V2.add_x, V2.add_y] at *
    linear_combination h1 + h2 + 2 * hc2 - 4 * hsc
  have hcne : ¬ cos (arccos (-V2.dot prev next) / 2) = 0 := by rw [← hc]; exact hcpos.ne'
  unfold offsetCorner
  dsimp only
  rw [unitVector_unit hn1, unitVector_unit hn2]
  by_cases hcl : isClose2 (prev + next) ⟨0, 0⟩ (1 / 10 ^ 6)
  · rw [if_pos hcl]
    dsimp only
    rw [hdot, if_neg hcne, ← hc]
    exact ⟨c, s, _, _, hcpos, hspos, hsc, hc2, hnorm, rfl, Or.inl ⟨hcl, rfl, rfl⟩⟩
  · rw [if_neg hcl]
    have hs0 : s ≠ 0 := by
      intro h0
      apply hcl
      rw [h0, mul_zero] at hnorm
      unfold isClose2 mathIsClose
      have e : V2.pointDistance (prev + next) ⟨0, 0⟩ = V2.norm (prev + next) := by
        unfold V2.pointDistance; congr 1; ext <;> simp
      rw [e, hnorm]; norm_num
    have hsp : 0 < s := lt_of_le_of_ne hspos (Ne.symm hs0)
    have hu : V2.unitVector (prev + next) = some (V2.smul (1 / (2 * s)) (prev + next)) := by
      unfold V2.unitVector
      rw [hnorm, if_neg (by positivity)]
      congr 1
      ext <;> simp <;> ring
    have hd : V2.dot (V2.smul (1 / (2 * s)) (prev + next)) (V2.normalVector prev) = 1 / (2 * s) * V2.cross prev next := by
      simp only [V2.dot, V2.normalVector, V2.smul_x, V2.smul_y, V2.add_x, V2.add_y, V2.cross]; ring
    have hiff : V2.dot (V2.smul (1 / (2 * s)) (prev + next)) (V2.normalVector prev) > 0 ↔ V2.cross prev next > 0 := by
      rw [hd]
      exact mul_pos_iff_of_pos_left (by positivity)
    rw [hu]
    dsimp only
    by_cases hcr : V2.cross prev next > 0
    · rw [if_pos (hiff.mpr hcr)]
      dsimp only
      rw [hdot, if_neg hcne, ← hc]
      refine ⟨c, s, _, _, hcpos, hspos, hsc, hc2, hnorm, rfl, Or.inr ⟨hcl, hsp, by simp [hcr], ?_⟩⟩
      rw [if_pos hcr]
      ext <;> simp only [V2.smul_x, V2.smul_y, V2.neg_x, V2.neg_y, V2.add_x, V2.add_y] <;> field_simp
    · rw [if_neg (fun h => hcr (hiff.mp h))]
      dsimp only
      rw [hdot, if_neg hcne, ← hc]
      refine ⟨c, s, _, _, hcpos, hspos, hsc, hc2, hnorm, rfl, Or.inr ⟨hcl, hsp, by simp [hcr], ?_⟩⟩
      rw [if_neg hcr]
      ext <;> simp <;> field_simp

/-- C86: exact offset of a corner that is not within `1e-6` of being straight; the flag tells the right turns. Missing: the
corners that are almost straight, for which `C86_corner` gives the error. -/
theorem C86_corner_partial (p prev next : V2 ℝ) (offset : ℝ) (h1 : V2.dot prev prev = 1) (h2 : V2.dot next next = 1)
    (hx : V2.cross prev next ≠ 0) (hfar : ¬ isClose2 (prev + next) ⟨0, 0⟩ (1 / 10 ^ 6)) :
    ∃ q c, offsetCorner p prev next offset = some (q, c) ∧ leftDist p (-prev) q = offset ∧ leftDist p next q = offset ∧
      (c = true ↔ V2.cross (-prev) next < 0) := by
  have hid : V2.dot prev next ^ 2 + V2.cross prev next ^ 2 = 1 := by
    simp only [V2.dot, V2.cross] at *
    linear_combination (next.x * next.x + next.y * next.y) * h1 + h2
  have hne : V2.dot prev next ≠ 1 := by
    intro h; rw [h] at hid; apply hx
    have : V2.cross prev next ^ 2 = 0 := by linarith
    exact pow_eq_zero_iff (two_ne_zero) |>.mp this
  obtain ⟨c, s, b, chk, hc, hs, hsc, hc2, hnorm, heq, hcase⟩ := offsetCorner_eq p prev next offset h1 h2 hne
  rcases hcase with ⟨h, -⟩ | ⟨-, hsp, hchk, hb⟩
  · exact absurd h hfar
  refine ⟨_, _, heq, ?_⟩
  have hcross : V2.cross prev next ^ 2 = (2 * s * c) ^ 2 := by
    have : V2.dot prev next = 1 - 2 * c ^ 2 := by linarith
    rw [this] at hid
    have hs2 : s ^ 2 = 1 - c ^ 2 := by linarith
    have : (2 * s * c) ^ 2 = 4 * s ^ 2 * c ^ 2 := by ring
    rw [this, hs2]; linarith
  have key : ∀ σ : ℝ, V2.smul (2 * s) b = V2.smul σ (prev + next) → σ * V2.cross prev next = -(2 * s * c) →
      leftDist p (-prev) (p + V2.smul (offset / c) b) = offset ∧ leftDist p next (p + V2.smul (offset / c) b) = offset := by
    intro σ hb' hσ
    have hbx := congrArg V2.x hb'
    have hby := congrArg V2.y hb'
    simp only [V2.smul_x, V2.smul_y, V2.add_x, V2.add_y] at hbx hby
    have k1 : V2.cross (-prev) b = c := by
      have : 2 * s * V2.cross (-prev) b = 2 * s * c := by
        simp only [V2.cross, V2.neg_x, V2.neg_y] at *
        linear_combination -prev.x * hby + prev.y * hbx - hσ
      exact mul_left_cancel₀ (by positivity) this
    have k2 : V2.cross next b = c := by
      have : 2 * s * V2.cross next b = 2 * s * c := by
        simp only [V2.cross, V2.neg_x, V2.neg_y] at *
        linear_combination next.x * hby - next.y * hbx - hσ
      exact mul_left_cancel₀ (by positivity) this
    have hoc : offset / c * c = offset := div_mul_cancel₀ _ hc.ne'
    unfold leftDist
    constructor
    · have : V2.cross (-prev) (p + V2.smul (offset / c) b - p) = offset / c * V2.cross (-prev) b := by
        simp only [V2.cross, V2.sub_x, V2.sub_y, V2.add_x, V2.add_y, V2.smul_x, V2.smul_y]; ring
      rw [this, k1, hoc]
    · have : V2.cross next (p + V2.smul (offset / c) b - p) = offset / c * V2.cross next b := by
        simp only [V2.cross, V2.sub_x, V2.sub_y, V2.add_x, V2.add_y, V2.smul_x, V2.smul_y]; ring
      rw [this, k2, hoc]
  have hsc' : 0 < 2 * s * c := by positivity
  have hchk' : chk = true ↔ V2.cross (-prev) next < 0 := by
    rw [hchk]
    have : V2.cross (-prev) next = -V2.cross prev next := by simp only [V2.cross, V2.neg_x, V2.neg_y]; ring
    rw [this]; constructor <;> intro h <;> linarith
  by_cases hcr : V2.cross prev next > 0
  · rw [if_pos hcr] at hb
    have hval : V2.cross prev next = 2 * s * c := (sq_eq_sq₀ hcr.le hsc'.le).mp hcross
    obtain ⟨r1, r2⟩ := key (-1) (by rw [hb]; ext <;> simp) (by rw [hval]; ring)
    exact ⟨r1, r2, hchk'⟩
  · rw [if_neg hcr] at hb
    have hneg : 0 ≤ -V2.cross prev next := by linarith [not_lt.mp hcr]
    have hval : -V2.cross prev next = 2 * s * c := (sq_eq_sq₀ hneg hsc'.le).mp (by rw [neg_sq]; exact hcross)
    obtain ⟨r1, r2⟩ := key 1 (by rw [hb]; ext <;> simp) (by linarith)
    exact ⟨r1, r2, hchk'⟩

/-- C86: for every corner that is not folded the offset point exists and is at the signed distance `offset` from the two lines,
up to a relative error of `1e-12`. -/
theorem C86_corner (p prev next : V2 ℝ) (offset : ℝ) (h1 : V2.dot prev prev = 1) (h2 : V2.dot next next = 1)
    (hx : V2.dot prev next ≠ 1) :
    ∃ q c, offsetCorner p prev next offset = some (q, c) ∧ |leftDist p (-prev) q - offset| ≤ 1 / 10 ^ 12 * |offset| ∧
      |leftDist p next q - offset| ≤ 1 / 10 ^ 12 * |offset| := by
  by_cases hcl : isClose2 (prev + next) ⟨0, 0⟩ (1 / 10 ^ 6)
  · obtain ⟨c, s, b, chk, hc, hs, hsc, hc2, hnorm, heq, hcase⟩ := offsetCorner_eq p prev next offset h1 h2 hx
    rcases hcase with ⟨-, hb, -⟩ | ⟨h, -⟩
    · refine ⟨_, _, heq, ?_⟩
      have hsm : s ≤ 1 / (2 * 10 ^ 6) := by
        have := isClose2_dist hcl
        have e : V2.pointDistance (prev + next) ⟨0, 0⟩ = V2.norm (prev + next) := by
          unfold V2.pointDistance; congr 1; ext <;> simp
        rw [e, hnorm] at this
        linarith
      have hc1 : c ≤ 1 := by nlinarith
      have hs2 : s ^ 2 ≤ 1 / 4 / 10 ^ 12 := by
        calc s ^ 2 ≤ (1 / (2 * 10 ^ 6)) ^ 2 := pow_le_pow_left₀ hs hsm 2
          _ = 1 / 4 / 10 ^ 12 := by norm_num
      have hcl1 : 1 - 1 / 4 / 10 ^ 12 ≤ c := by nlinarith
      have hinv : 1 / c ≤ 1 + 2 / 5 / 10 ^ 12 := by
        rw [div_le_iff₀ hc]
        nlinarith
      have hinv1 : 1 ≤ 1 / c := by rw [le_div_iff₀ hc]; linarith
      have k2 : leftDist p next (p + V2.smul (offset / c) b) = offset * (1 / c) := by
        unfold leftDist
        rw [hb]
        simp only [V2.cross, V2.sub_x, V2.sub_y, V2.add_x, V2.add_y, V2.smul_x, V2.smul_y, V2.normalVector, V2.dot] at *
        linear_combination (offset / c) * h2
      have k1 : leftDist p (-prev) (p + V2.smul (offset / c) b) = offset * (2 * c - 1 / c) := by
        have : leftDist p (-prev) (p + V2.smul (offset / c) b) = -(offset / c) * V2.dot prev next := by
          unfold leftDist
          rw [hb]
          simp only [V2.cross, V2.sub_x, V2.sub_y, V2.add_x, V2.add_y, V2.smul_x, V2.smul_y, V2.normalVector, V2.dot, V2.neg_x, V2.neg_y]
          ring
        rw [this, show V2.dot prev next = 1 - 2 * c ^ 2 by linarith]
        field_simp
        ring
      constructor
      · rw [k1, show offset * (2 * c - 1 / c) - offset = (2 * c - 1 / c - 1) * offset by ring, abs_mul]
        refine mul_le_mul_of_nonneg_right ?_ (abs_nonneg _)
        rw [abs_le]; constructor <;> linarith
      · rw [k2, show offset * (1 / c) - offset = (1 / c - 1) * offset by ring, abs_mul]
        refine mul_le_mul_of_nonneg_right ?_ (abs_nonneg _)
        rw [abs_le]; constructor <;> linarith
    · exact absurd hcl h
  · have hcr : V2.cross prev next ≠ 0 := by
      intro h0
      have hid : V2.dot prev next ^ 2 + V2.cross prev next ^ 2 = 1 := by
        simp only [V2.dot, V2.cross] at *
        linear_combination (next.x * next.x + next.y * next.y) * h1 + h2
      rw [h0] at hid
      have hd : V2.dot prev next = -1 := by
        have : (V2.dot prev next - 1) * (V2.dot prev next + 1) = 0 := by linarith
        rcases mul_eq_zero.mp this with h | h
        · exact absurd (by linarith) hx
        · linarith
      apply hcl
      have hz : V2.norm (prev + next) = 0 := by
        have : V2.norm (prev + next) ^ 2 = 0 := by
          rw [V2.norm_sq']
          simp only [V2.dot, V2.add_x, V2.add_y] at *
          linarith
        exact pow_eq_zero_iff (two_ne_zero) |>.mp this
      unfold isClose2 mathIsClose
      have e : V2.pointDistance (prev + next) ⟨0, 0⟩ = V2.norm (prev + next) := by
        unfold V2.pointDistance; congr 1; ext <;> simp
      rw [e, hz]; norm_num
    obtain ⟨q, c, heq, e1, e2, -⟩ := C86_corner_partial p prev next offset h1 h2 hcr hcl
    refine ⟨q, c, heq, ?_, ?_⟩
    · rw [e1]; simp
    · rw [e2]; simp

/-- C86 without the tolerance is false: a corner that turns by `2e-7`. -/
theorem C86_corner_counterexample : ¬ C86_corner_full_statement := by
  intro h
  obtain ⟨a, ha⟩ : ∃ a : ℝ, a = 1 / 10 ^ 7 := ⟨_, rfl⟩
  have hn : V2.dot (⟨(1 - a ^ 2) / (1 + a ^ 2), 2 * a / (1 + a ^ 2)⟩ : V2 ℝ) ⟨(1 - a ^ 2) / (1 + a ^ 2), 2 * a / (1 + a ^ 2)⟩ = 1 := by
    have : (1 + a ^ 2) ≠ 0 := by positivity
    simp only [V2.dot]; field_simp; ring
  have hp : V2.dot (⟨-1, 0⟩ : V2 ℝ) ⟨-1, 0⟩ = 1 := by norm_num [V2.dot]
  have hcl : isClose2 ((⟨-1, 0⟩ : V2 ℝ) + ⟨(1 - a ^ 2) / (1 + a ^ 2), 2 * a / (1 + a ^ 2)⟩) ⟨0, 0⟩ (1 / 10 ^ 6) := by
    unfold isClose2 mathIsClose
    refine le_max_of_le_right ?_
    rw [sub_zero, pd2_eq, abs_of_nonneg (sqrt_nonneg _), sqrt_le_left (by norm_num), ha]
    norm_num
  obtain ⟨q, ch, hq, -, hl⟩ := h ⟨0, 0⟩ ⟨-1, 0⟩ ⟨(1 - a ^ 2) / (1 + a ^ 2), 2 * a / (1 + a ^ 2)⟩ 1 hp hn (by
    rw [ha]; norm_num [V2.cross])
  obtain ⟨c, s, b, chk, hc, hs, hsc, hc2, hnorm, heq, hcase⟩ := offsetCorner_eq ⟨0, 0⟩ ⟨-1, 0⟩
    ⟨(1 - a ^ 2) / (1 + a ^ 2), 2 * a / (1 + a ^ 2)⟩ 1 hp hn (by rw [ha]; norm_num [V2.dot])
  rw [heq] at hq
  cases hq
  rcases hcase with ⟨-, hb, -⟩ | ⟨hh, -⟩
  · have : leftDist ⟨0, 0⟩ ⟨(1 - a ^ 2) / (1 + a ^ 2), 2 * a / (1 + a ^ 2)⟩ (⟨0, 0⟩ + V2.smul (1 / c) b) = 1 / c := by
      unfold leftDist
      rw [hb]
      simp only [V2.cross, V2.sub_x, V2.sub_y, V2.add_x, V2.add_y, V2.smul_x, V2.smul_y, V2.normalVector, V2.dot] at hn ⊢
      linear_combination (1 / c) * hn
    rw [this] at hl
    have hc1 : c = 1 := by field_simp at hl; linarith
    rw [hc1, ha] at hc2
    norm_num [V2.dot] at hc2
  · exact hh hcl

/-- A right corner meets the hypotheses of `C86_corner_partial` and `C86_corner`. -/
example : V2.dot (⟨-1, 0⟩ : V2 ℝ) ⟨-1, 0⟩ = 1 ∧ V2.dot (⟨0, 1⟩ : V2 ℝ) ⟨0, 1⟩ = 1 ∧ V2.cross (⟨-1, 0⟩ : V2 ℝ) ⟨0, 1⟩ ≠ 0 ∧
    V2.dot (⟨-1, 0⟩ : V2 ℝ) ⟨0, 1⟩ ≠ 1 ∧ ¬ isClose2 ((⟨-1, 0⟩ : V2 ℝ) + ⟨0, 1⟩) ⟨0, 0⟩ (1 / 10 ^ 6) := by
  refine ⟨by norm_num [V2.dot], by norm_num [V2.dot], by norm_num [V2.cross], by norm_num [V2.dot], ?_⟩
  intro h
  have := isClose2_dist h
  rw [pd2_eq] at this
  have h1 : (1 : ℝ) ≤ √2 := by rw [le_sqrt (by norm_num) (by norm_num)]; norm_num
  norm_num at this
  linarith

/-! ## The new radius -/

/-- C86: the new radius is that of the concentric arc: in a left turn the radius decreases by `offset` (the offset polyline is
on the left for a positive offset), in a right turn it increases by `offset`; a rounding whose new radius is not positive is
removed, or set to `1e-6` with `adapt_radius`. -/
theorem C86_radius (r offset : ℝ) (rightTurn adapt : Bool) :
    offsetRadius r offset rightTurn adapt =
      (let r' := if rightTurn then r + offset else r - offset
       if 0 < r' then some r' else if adapt then some (1 / 10 ^ 6) else none) := by
  unfold offsetRadius
  have : (if (rightTurn = true ∧ offset > 0) ∨ (rightTurn = false ∧ offset < 0) then r + |offset| else r - |offset|) =
      if rightTurn then r + offset else r - offset := by
    cases rightTurn with
    | true =>
      by_cases h : offset > 0
      · simp [h, abs_of_pos h]
      · simp [h, abs_of_nonpos (not_lt.mp h)]
    | false =>
      by_cases h : offset < 0
      · simp [h, abs_of_neg h]; ring
      · simp [h, abs_of_nonneg (not_lt.mp h)]
  simp only [this]

/-- C86: the arc of the new radius at the offset corner has the same centre: a point at the signed distance `σ·r` from the two
lines of the corner (`σ = -1` for a right turn, `1` for a left turn) is at the signed distance `σ·r'` from the offset lines,
where `r'` is the new radius. -/
theorem C86_concentric (p prev next q C : V2 ℝ) (r r' offset : ℝ) (chk adapt : Bool) (h1 : V2.dot prev prev = 1)
    (h2 : V2.dot next next = 1) (hx : V2.cross prev next ≠ 0) (hfar : ¬ isClose2 (prev + next) ⟨0, 0⟩ (1 / 10 ^ 6))
    (hq : offsetCorner p prev next offset = some (q, chk)) (hr' : offsetRadius r offset chk adapt = some r') (hpos : r' ≠ 1 / 10 ^ 6)
    (hC1 : leftDist p (-prev) C = (if V2.cross (-prev) next < 0 then -1 else 1) * r)
    (hC2 : leftDist p next C = (if V2.cross (-prev) next < 0 then -1 else 1) * r) :
    leftDist q (-prev) C = (if V2.cross (-prev) next < 0 then -1 else 1) * r' ∧
      leftDist q next C = (if V2.cross (-prev) next < 0 then -1 else 1) * r' := by
  obtain ⟨q', c', heq, e1, e2, e3⟩ := C86_corner_partial p prev next offset h1 h2 hx hfar
  rw [hq] at heq
  cases heq
  have lin : ∀ t, leftDist q t C = leftDist p t C - leftDist p t q := by
    intro t; unfold leftDist; simp only [V2.cross, V2.sub_x, V2.sub_y]; ring
  rw [lin, lin, hC1, hC2, e1, e2]
  rw [C86_radius] at hr'
  have hv : r' = if chk then r + offset else r - offset := by
    dsimp only at hr'
    generalize (if chk then r + offset else r - offset) = z at hr' ⊢
    by_cases hz : 0 < z
    · rw [if_pos hz, Option.some.injEq] at hr'; exact hr'.symm
    · rw [if_neg hz] at hr'
      cases adapt
      · simp at hr'
      · simp only [if_true, Option.some.injEq] at hr'
        exact absurd hr'.symm hpos
  by_cases hc : chk = true
  · rw [if_pos (e3.mp hc)]
    rw [hc] at hv
    simp only [if_true] at hv
    rw [hv]; constructor <;> ring
  · rw [if_neg (fun h => hc (e3.mpr h))]
    have hc' : chk = false := by simpa using hc
    rw [hc'] at hv
    simp only [Bool.false_eq_true, if_false] at hv
    rw [hv]; constructor <;> ring

/-! ## The whole polyline -/

/-- `q` is at the signed distance `offset` from the line through `a` and `b`, up to the relative error `1e-12`. -/
def AtOffset (a b : V2 ℝ) (offset : ℝ) (q : V2 ℝ) : Prop :=
  ∃ t, V2.unitVector (b - a) = some t ∧ |leftDist a t q - offset| ≤ 1 / 10 ^ 12 * |offset|

theorem unitVector_neg (a b : V2 ℝ) {t : V2 ℝ} (h : V2.unitVector (b - a) = some t) : V2.unitVector (a - b) = some (-t) := by
  have hn : V2.norm (a - b) = V2.norm (b - a) := by
    unfold V2.norm; congr 1; simp only [V2.sub_x, V2.sub_y]; ring
  unfold V2.unitVector at *
  rw [hn]
  split at h
  · cases h
  · rename_i h0
    cases h
    rw [if_neg h0]
    congr 1
    ext <;> simp <;> ring

/-- The signed distance does not depend on the point of the line. -/
theorem leftDist_shift (a b : V2 ℝ) {t q : V2 ℝ} (h : V2.unitVector (b - a) = some t) : leftDist a t q = leftDist b t q := by
  obtain ⟨hp, he, hu⟩ := V2.unitVector_spec h
  have hx := congrArg V2.x he
  have hy := congrArg V2.y he
  generalize V2.norm (b - a) = d at *
  unfold leftDist
  simp only [V2.cross, V2.sub_x, V2.sub_y, V2.smul_x, V2.smul_y] at *
  linear_combination t.x * hy - t.y * hx

/-- A folded corner has no offset: division by zero. -/
theorem offsetCorner_folded (p v1 v2 : V2 ℝ) (offset : ℝ) (hu1 : V2.dot v1 v1 = 1) (hu2 : V2.dot v2 v2 = 1) (h1 : V2.dot v1 v2 = 1) :
    offsetCorner p v1 v2 offset = none := by
  have hn1 : V2.dot (V2.normalVector v1) (V2.normalVector v1) = 1 := by
    simp only [V2.dot, V2.normalVector] at *; linarith
  have hn2 : V2.dot (V2.normalVector v2) (V2.normalVector v2) = 1 := by
    simp only [V2.dot, V2.normalVector] at *; linarith
  have hdot : V2.dot (-V2.normalVector v1) (V2.normalVector v2) = -V2.dot v1 v2 := by
    simp only [V2.dot, V2.normalVector, V2.neg_x, V2.neg_y]; ring
  have hcos : cos (arccos (V2.dot (-V2.normalVector v1) (V2.normalVector v2)) / 2) = 0 := by
    rw [hdot, h1, arccos_neg_one, cos_pi_div_two]
  unfold offsetCorner
  dsimp only
  rw [unitVector_unit hn1, unitVector_unit hn2]
  split
  · rename_i e1 e2 e3
    cases e2; cases e3
    rw [if_pos hcos]
  · rfl

/-- The offset of the last points of an open polyline. -/
theorem offsetOpen_go_spec (offset : ℝ) (rest : List (V2 ℝ)) : ∀ (a b : V2 ℝ) (l : List (V2 ℝ)), offsetOpen.go offset a b rest = some l →
    ∃ q qs, l = q :: qs ∧ qs.length = rest.length ∧ AtOffset a b offset q ∧
      ∀ k, k < rest.length →
        AtOffset ((b :: rest).getD k ⟨0, 0⟩) ((b :: rest).getD (k + 1) ⟨0, 0⟩) offset ((q :: qs).getD k ⟨0, 0⟩) ∧
        AtOffset ((b :: rest).getD k ⟨0, 0⟩) ((b :: rest).getD (k + 1) ⟨0, 0⟩) offset ((q :: qs).getD (k + 1) ⟨0, 0⟩) := by
  induction rest with
  | nil =>
    intro a b l h
    unfold offsetOpen.go at h
    split at h
    · rename_i v hv
      cases h
      refine ⟨_, [], rfl, rfl, ?_, by simp⟩
      have ht := unitVector_neg b a hv
      refine ⟨-v, ht, ?_⟩
      rw [leftDist_shift a b ht]
      obtain ⟨-, -, hu⟩ := V2.unitVector_spec hv
      have : leftDist b (-v) (offsetLast b v offset) = offset := by
        unfold leftDist offsetLast
        simp only [V2.cross, V2.sub_x, V2.sub_y, V2.add_x, V2.add_y, V2.smul_x, V2.smul_y, V2.neg_x, V2.neg_y, V2.normalVector, V2.dot] at *
        linear_combination offset * hu
      rw [this, sub_self, abs_zero]; positivity
    · cases h
  | cons c rest ih =>
    intro a b l h
    unfold offsetOpen.go at h
    split at h
    · rename_i v1 v2 l' hv1 hv2 hgo
      split at h
      · rename_i q hq
        cases h
        obtain ⟨q', qs, rfl, hlen, hat, hall⟩ := ih b c l' hgo
        obtain ⟨-, -, hu1⟩ := V2.unitVector_spec hv1
        obtain ⟨-, -, hu2⟩ := V2.unitVector_spec hv2
        have hne : V2.dot v1 v2 ≠ 1 := fun h1 => by
          rw [offsetCorner_folded b v1 v2 offset hu1 hu2 h1] at hq; cases hq
        obtain ⟨q0, c0, heq, e1, e2⟩ := C86_corner b v1 v2 offset hu1 hu2 hne
        rw [hq] at heq
        cases heq
        have ht := unitVector_neg b a hv1
        refine ⟨q0, q' :: qs, rfl, by simp [hlen], ⟨-v1, ht, ?_⟩, ?_⟩
        · rw [leftDist_shift a b ht]; exact e1
        · intro k hk
          cases k with
          | zero => exact ⟨⟨v2, hv2, e2⟩, by simpa using hat⟩
          | succ k =>
            have := hall k (by simpa using hk)
            simpa using this
      · cases h
    · cases h

/-- C86, open polylines: there are as many points, and both ends of each line of the offset polyline are at the signed distance
`offset` from the line of the polyline, up to a relative error of `1e-12`. -/
theorem C86_open (offset : ℝ) (points qs : List (V2 ℝ)) (h : offsetOpen offset points = some qs) :
    qs.length = points.length ∧ ∀ k, k + 1 < points.length →
      AtOffset (points.getD k ⟨0, 0⟩) (points.getD (k + 1) ⟨0, 0⟩) offset (qs.getD k ⟨0, 0⟩) ∧
      AtOffset (points.getD k ⟨0, 0⟩) (points.getD (k + 1) ⟨0, 0⟩) offset (qs.getD (k + 1) ⟨0, 0⟩) := by
  unfold offsetOpen at h
  split at h
  · rename_i a b rest
    split at h
    · rename_i v l hv hgo
      cases h
      obtain ⟨q, qs, rfl, hlen, hat, hall⟩ := offsetOpen_go_spec offset rest a b l hgo
      refine ⟨by simp [hlen], ?_⟩
      intro k hk
      cases k with
      | zero =>
        refine ⟨⟨v, hv, ?_⟩, by simpa using hat⟩
        obtain ⟨-, -, hu⟩ := V2.unitVector_spec hv
        have : leftDist a v (offsetFirst a v offset) = offset := by
          unfold leftDist offsetFirst
          simp only [V2.cross, V2.sub_x, V2.sub_y, V2.add_x, V2.add_y, V2.smul_x, V2.smul_y, V2.normalVector, V2.dot] at *
          linear_combination offset * hu
        simp only [List.getD_cons_zero]
        rw [this, sub_self, abs_zero]; positivity
      | succ k =>
        have := hall k (by simpa using hk)
        simpa using this
    · cases h
  · cases h

theorem mapM_option {α β : Type*} (f : α → Option β) (l : List α) : ∀ (r : List β), l.mapM f = some r →
    r.length = l.length ∧ ∀ (i : ℕ) (h : i < l.length) (d : β), f l[i] = some (r.getD i d) := by
  induction l with
  | nil => intro r h; simp at h; subst h; simp
  | cons a l ih =>
    intro r h
    rw [List.mapM_cons] at h
    cases ha : f a with
    | none => rw [ha] at h; cases h
    | some b =>
      cases hl : l.mapM f with
      | none => rw [ha, hl] at h; cases h
      | some s =>
        rw [ha, hl] at h
        cases h
        obtain ⟨h1, h2⟩ := ih s hl
        refine ⟨by simp [h1], ?_⟩
        intro i hi d
        cases i with
        | zero => simpa using ha
        | succ i => simpa using h2 i (by simpa using hi) d

/-- The offset of one corner of a closed polyline. -/
theorem offsetClosedAt_spec {offset : ℝ} {points : List (V2 ℝ)} {i : ℕ} {q : V2 ℝ} (h : offsetClosedAt offset points i = some q) :
    AtOffset (points.getD ((i + points.length - 1) % points.length) ⟨0, 0⟩) (points.getD i ⟨0, 0⟩) offset q ∧
      AtOffset (points.getD i ⟨0, 0⟩) (points.getD ((i + 1) % points.length) ⟨0, 0⟩) offset q := by
  unfold offsetClosedAt at h
  dsimp only at h
  split at h
  · rename_i v1 v2 hv1 hv2
    obtain ⟨⟨q', c⟩, hq, rfl⟩ := Option.map_eq_some_iff.mp h
    obtain ⟨-, -, hu1⟩ := V2.unitVector_spec hv1
    obtain ⟨-, -, hu2⟩ := V2.unitVector_spec hv2
    have hne : V2.dot v1 v2 ≠ 1 := fun h1 => by
      rw [offsetCorner_folded _ v1 v2 offset hu1 hu2 h1] at hq; cases hq
    obtain ⟨q0, c0, heq, e1, e2⟩ := C86_corner (points.getD i ⟨0, 0⟩) v1 v2 offset hu1 hu2 hne
    rw [hq] at heq
    cases heq
    have ht := unitVector_neg _ _ hv1
    refine ⟨⟨-v1, ht, ?_⟩, ⟨v2, hv2, e2⟩⟩
    rw [leftDist_shift _ _ ht]; exact e1
  · cases h

/-- C86, closed polylines: both ends of each line, including the closing one, of the offset polyline are at the signed distance
`offset` from the line of the polyline, up to a relative error of `1e-12`. -/
theorem C86_closed (offset : ℝ) (points qs : List (V2 ℝ)) (h : offsetClosed offset points = some qs) :
    qs.length = points.length ∧ ∀ k, k < points.length →
      AtOffset (points.getD k ⟨0, 0⟩) (points.getD ((k + 1) % points.length) ⟨0, 0⟩) offset (qs.getD k ⟨0, 0⟩) ∧
      AtOffset (points.getD k ⟨0, 0⟩) (points.getD ((k + 1) % points.length) ⟨0, 0⟩) offset (qs.getD ((k + 1) % points.length) ⟨0, 0⟩) := by
  obtain ⟨h1, h2⟩ := mapM_option _ _ _ h
  rw [List.length_range] at h1
  refine ⟨h1, ?_⟩
  intro k hk
  have a := h2 k (by simpa using hk) ⟨0, 0⟩
  have hk1 : (k + 1) % points.length < points.length := Nat.mod_lt _ (by omega)
  have b := h2 _ (by simpa using hk1) ⟨0, 0⟩
  rw [List.getElem_range] at a b
  refine ⟨(offsetClosedAt_spec a).2, ?_⟩
  have hb := (offsetClosedAt_spec b).1
  have e : ((k + 1) % points.length + points.length - 1) % points.length = k := by
    by_cases hl : k + 1 < points.length
    · rw [Nat.mod_eq_of_lt hl, show k + 1 + points.length - 1 = k + points.length by omega, Nat.add_mod_right, Nat.mod_eq_of_lt hk]
    · have : k + 1 = points.length := by omega
      rw [this, Nat.mod_self, Nat.zero_add, Nat.mod_eq_of_lt (by omega)]; omega
  rw [e] at hb
  exact hb

/-- C86: the offset exists when consecutive points are different and no corner is folded back. -/
theorem C86_open_total (offset : ℝ) (rest : List (V2 ℝ)) : ∀ (a b : V2 ℝ), a ≠ b → (a :: b :: rest).IsChain (· ≠ ·) →
    (∀ k, k < rest.length → V2.cross ((a :: b :: rest).getD k ⟨0, 0⟩ - (a :: b :: rest).getD (k + 1) ⟨0, 0⟩)
        ((a :: b :: rest).getD (k + 2) ⟨0, 0⟩ - (a :: b :: rest).getD (k + 1) ⟨0, 0⟩) ≠ 0 ∨
      V2.dot ((a :: b :: rest).getD k ⟨0, 0⟩ - (a :: b :: rest).getD (k + 1) ⟨0, 0⟩)
        ((a :: b :: rest).getD (k + 2) ⟨0, 0⟩ - (a :: b :: rest).getD (k + 1) ⟨0, 0⟩) < 0) →
    ∃ qs, offsetOpen offset (a :: b :: rest) = some qs := by
  have us : ∀ a b : V2 ℝ, a ≠ b → ∃ v, V2.unitVector (b - a) = some v := by
    intro a b h
    unfold V2.unitVector
    rw [if_neg (V2.norm_pos' (fun h0 => h ?_)).ne']
    · exact ⟨_, rfl⟩
    · have hx := congrArg V2.x h0
      have hy := congrArg V2.y h0
      simp only [V2.sub_x, V2.sub_y] at hx hy
      ext <;> linarith
  have go : ∀ (rest : List (V2 ℝ)) (a b : V2 ℝ), (a :: b :: rest).IsChain (· ≠ ·) →
      (∀ k, k < rest.length → V2.cross ((a :: b :: rest).getD k ⟨0, 0⟩ - (a :: b :: rest).getD (k + 1) ⟨0, 0⟩)
        ((a :: b :: rest).getD (k + 2) ⟨0, 0⟩ - (a :: b :: rest).getD (k + 1) ⟨0, 0⟩) ≠ 0 ∨
      V2.dot ((a :: b :: rest).getD k ⟨0, 0⟩ - (a :: b :: rest).getD (k + 1) ⟨0, 0⟩)
        ((a :: b :: rest).getD (k + 2) ⟨0, 0⟩ - (a :: b :: rest).getD (k + 1) ⟨0, 0⟩) < 0) →
      ∃ l, offsetOpen.go offset a b rest = some l := by
    intro rest
    induction rest with
    | nil =>
      intro a b h _
      obtain ⟨v, hv⟩ := us b a (Ne.symm (List.isChain_cons_cons.mp h).1)
      unfold offsetOpen.go
      rw [hv]
      exact ⟨_, rfl⟩
    | cons c rest ih =>
      intro a b h hf
      rw [List.isChain_cons_cons] at h
      have hbc := List.isChain_cons_cons.mp h.2
      obtain ⟨v1, hv1⟩ := us b a (Ne.symm h.1)
      obtain ⟨v2, hv2⟩ := us b c hbc.1
      obtain ⟨l, hl⟩ := ih b c h.2 (fun k hk => by
        have := hf (k + 1) (by simpa using hk)
        simpa using this)
      have h0 := hf 0 (by simp)
      simp only [List.getD_cons_zero, List.getD_cons_succ, Nat.zero_add, Nat.reduceAdd] at h0
      obtain ⟨p1, e1, hu1⟩ := V2.unitVector_spec hv1
      obtain ⟨p2, e2, hu2⟩ := V2.unitVector_spec hv2
      have hne : V2.dot v1 v2 ≠ 1 := by
        intro h1
        have hid : V2.dot v1 v2 ^ 2 + V2.cross v1 v2 ^ 2 = 1 := by
          simp only [V2.dot, V2.cross] at *
          linear_combination (v2.x * v2.x + v2.y * v2.y) * hu1 + hu2
        have hc0 : V2.cross v1 v2 = 0 := by
          rw [h1] at hid
          have : V2.cross v1 v2 ^ 2 = 0 := by linarith
          exact pow_eq_zero_iff (two_ne_zero) |>.mp this
        rw [e1, e2] at h0
        rcases h0 with h0 | h0
        · apply h0
          have : V2.cross (V2.smul (V2.norm (a - b)) v1) (V2.smul (V2.norm (c - b)) v2) = V2.norm (a - b) * V2.norm (c - b) * V2.cross v1 v2 := by
            simp only [V2.cross, V2.smul_x, V2.smul_y]; ring
          rw [this, hc0, mul_zero]
        · have : V2.dot (V2.smul (V2.norm (a - b)) v1) (V2.smul (V2.norm (c - b)) v2) = V2.norm (a - b) * V2.norm (c - b) * V2.dot v1 v2 := by
            simp only [V2.dot, V2.smul_x, V2.smul_y]; ring
          rw [this, h1, mul_one] at h0
          linarith [mul_pos p1 p2]
      obtain ⟨q, ch, hq, -⟩ := C86_corner b v1 v2 offset hu1 hu2 hne
      unfold offsetOpen.go
      rw [hv1, hv2, hl]
      dsimp only
      rw [hq]
      exact ⟨_, rfl⟩
  intro a b hab hch hf
  obtain ⟨v, hv⟩ := us a b hab
  obtain ⟨l, hl⟩ := go rest a b hch hf
  unfold offsetOpen
  dsimp only
  rw [hv, hl]
  exact ⟨_, rfl⟩

/-- An offset that exists: the polyline `(0,0), (1,0), (1,1)`. -/
example : ∃ qs, offsetOpen (1 / 10) [⟨0, 0⟩, ⟨1, 0⟩, ⟨1, 1⟩] = some qs := by
  refine C86_open_total _ _ _ _ ?_ ?_ ?_
  · intro h; have := congrArg V2.x h; norm_num at this
  · rw [List.isChain_cons_cons, List.isChain_cons_cons]
    refine ⟨?_, ?_, List.isChain_singleton _⟩
    · intro h; have := congrArg V2.x h; norm_num at this
    · intro h; have := congrArg V2.y h; norm_num at this
  · intro k hk
    have : k = 0 := by simpa using hk
    subst this
    left
    norm_num [V2.cross]

end Volmdlr.Fillet
