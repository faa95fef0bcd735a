import Verif.Shared.Model
import Verif.Segment.Props
import Verif.Intersect.LineProps
import Verif.Fillet.Arc3Props

/-!
# C159: sections shared by two line segments
-/

namespace Volmdlr.Shared

open Volmdlr.Angle Volmdlr.Intersect

/-! ## Coordinates on a line -/

/-- The point of coordinate `x` of the line through `o` along `n`. -/
noncomputable def P (o n : V3 ℝ) (x : ℝ) : V3 ℝ := o + V3.smul x n

variable {o n : V3 ℝ} {tol : ℝ}

theorem dist_P (hn : V3.norm n = 1) (x y : ℝ) : V3.pointDistance (P o n x) (P o n y) = |x - y| := by
  unfold V3.pointDistance P
  have : o + V3.smul x n - (o + V3.smul y n) = V3.smul (x - y) n := by ext <;> simp <;> ring
  rw [this, Fillet.V3.norm_smul_abs, hn, mul_one]

theorem P_inj (hn : V3.norm n = 1) {x y : ℝ} : P o n x = P o n y ↔ x = y := by
  constructor
  · intro h
    have h1 := dist_P (o := o) hn x y
    rw [h] at h1
    have h2 : V3.pointDistance (P o n y) (P o n y) = 0 := by
      have := dist_P (o := o) hn y y
      rwa [sub_self, abs_zero] at this
    rw [h2] at h1
    exact sub_eq_zero.mp (abs_eq_zero.mp h1.symm)
  · rintro rfl; rfl

/-- A point of a segment of the line. -/
theorem onSeg_P (hn : V3.norm n = 1) (a b x : ℝ) : OnSeg3 (P o n a) (P o n b) (P o n x) ↔ min a b ≤ x ∧ x ≤ max a b := by
  constructor
  · rintro ⟨t, h0, h1, hx, hy, hz⟩
    have hP : P o n x = P o n (a + t * (b - a)) := by
      simp only [P, V3.add_x, V3.add_y, V3.add_z, V3.smul_x, V3.smul_y, V3.smul_z] at hx hy hz
      ext <;> simp only [P, V3.add_x, V3.add_y, V3.add_z, V3.smul_x, V3.smul_y, V3.smul_z]
      · linear_combination hx
      · linear_combination hy
      · linear_combination hz
    rw [P_inj hn] at hP
    rw [hP]
    rcases le_total a b with h | h
    · rw [min_eq_left h, max_eq_right h]; constructor <;> nlinarith
    · rw [min_eq_right h, max_eq_left h]; constructor <;> nlinarith
  · rintro ⟨h1, h2⟩
    have hx : ∃ t, 0 ≤ t ∧ t ≤ 1 ∧ x = a + t * (b - a) := by
      by_cases hab : a = b
      · subst hab
        rw [min_self] at h1
        rw [max_self] at h2
        exact ⟨0, le_refl _, zero_le_one, by linarith⟩
      · rcases lt_or_gt_of_ne hab with h | h
        · rw [min_eq_left h.le] at h1
          rw [max_eq_right h.le] at h2
          have : 0 < b - a := by linarith
          exact ⟨(x - a) / (b - a), div_nonneg (by linarith) this.le, (div_le_one this).mpr (by linarith), by field_simp; ring⟩
        · rw [min_eq_right h.le] at h1
          rw [max_eq_left h.le] at h2
          have : 0 < a - b := by linarith
          refine ⟨(a - x) / (a - b), div_nonneg (by linarith) this.le, (div_le_one this).mpr (by linarith), ?_⟩
          field_simp; ring
    obtain ⟨t, h0, h1', hx⟩ := hx
    refine ⟨t, h0, h1', ?_, ?_, ?_⟩ <;> simp only [P, V3.add_x, V3.add_y, V3.add_z, V3.smul_x, V3.smul_y, V3.smul_z] <;> rw [hx] <;> ring

/-- A point of a segment of the line has a coordinate. -/
theorem onSeg_coord {a b : ℝ} {q : V3 ℝ} (h : OnSeg3 (P o n a) (P o n b) q) : ∃ x, q = P o n x := by
  obtain ⟨t, -, -, hx, hy, hz⟩ := h
  refine ⟨a + t * (b - a), ?_⟩
  simp only [P, V3.add_x, V3.add_y, V3.add_z, V3.smul_x, V3.smul_y, V3.smul_z] at hx hy hz
  ext <;> simp only [P, V3.add_x, V3.add_y, V3.add_z, V3.smul_x, V3.smul_y, V3.smul_z]
  · linear_combination hx
  · linear_combination hy
  · linear_combination hz

theorem mid_P (a b : ℝ) : Seg3.middlePoint ⟨P o n a, P o n b⟩ = P o n ((a + b) / 2) := by
  unfold Seg3.middlePoint P
  ext <;> simp <;> ring

open Classical in
/-- `point_belongs` on the line. -/
theorem belongs_P (hn : V3.norm n = 1) (ht : 0 ≤ tol) {a b : ℝ} (hab : a ≠ b) (x : ℝ) :
    belongs ⟨P o n a, P o n b⟩ (P o n x) tol = .ok (decide (min a b - tol ≤ x ∧ x ≤ max a b + tol)) := by
  obtain ⟨d, q, hd, hq, hdq, hmin⟩ := (C07_linesegment3d_distance (P o n a) (P o n b) (P o n x)).2 (fun h => hab ((P_inj hn).mp h))
  unfold belongs
  dsimp only
  rw [hd]
  dsimp only
  have hiff : mathIsClose d 0 tol ↔ (min a b - tol ≤ x ∧ x ≤ max a b + tol) := by
    rw [mathIsClose_zero ht]
    obtain ⟨y, rfl⟩ := onSeg_coord hq
    rw [onSeg_P hn] at hq
    have hd0 : 0 ≤ d := by rw [hdq]; exact V3.norm_nonneg _
    rw [abs_of_nonneg hd0]
    rw [dist_P hn] at hdq
    constructor
    · intro h
      rw [hdq] at h
      obtain ⟨h1, h2⟩ := abs_le.mp h
      constructor <;> linarith [hq.1, hq.2]
    · rintro ⟨h1, h2⟩
      have hmm : min a b ≤ max a b := min_le_max
      have hz := hmin (P o n (max (min a b) (min x (max a b)))) ((onSeg_P hn _ _ _).mpr ⟨le_max_left _ _, max_le hmm (min_le_right _ _)⟩)
      rw [dist_P hn] at hz
      refine hz.trans (abs_le.mpr ⟨?_, ?_⟩)
      · rcases le_total x (max a b) with h | h
        · rw [min_eq_left h]; linarith [le_max_right (min a b) x]
        · rw [min_eq_right h, max_eq_right hmm]; linarith
      · have : max (min a b) (min x (max a b)) ≤ x + tol := max_le (by linarith) ((min_le_left _ _).trans (by linarith))
        linarith
  simp only [hiff]

/-- The end `x` is not within the tolerance of the interval without being in it. -/
def Sharp (tol a b x : ℝ) : Prop := min a b - tol ≤ x ∧ x ≤ max a b + tol → min a b ≤ x ∧ x ≤ max a b

theorem sharp_left (a b : ℝ) : Sharp tol a b a := fun _ => ⟨min_le_left _ _, le_max_left _ _⟩
theorem sharp_right (a b : ℝ) : Sharp tol a b b := fun _ => ⟨min_le_right _ _, le_max_right _ _⟩

/-- Two ends are equal or clearly apart. -/
def Apart (tol x y : ℝ) : Prop := x = y ∨ tol < |x - y|

theorem sharp_of_apart {a b x : ℝ} (ha : Apart tol a x) (hb : Apart tol b x) : Sharp tol a b x := by
  rintro ⟨h1, h2⟩
  have hm : ∀ c, c = a ∨ c = b → c - tol ≤ x → x ≤ c + tol → c = x := by
    rintro c (rfl | rfl) h3 h4
    · rcases ha with h | h
      · exact h
      · exact absurd (abs_le.mpr ⟨by linarith, by linarith⟩) (not_le.mpr h)
    · rcases hb with h | h
      · exact h
      · exact absurd (abs_le.mpr ⟨by linarith, by linarith⟩) (not_le.mpr h)
  constructor
  · by_contra h
    push Not at h
    have := hm (min a b) (min_choice a b) h1 (by
      rcases ha with h' | h' <;> rcases hb with h'' | h'' <;> nlinarith [min_le_left a b, min_le_right a b, abs_nonneg (a - x)])
    linarith
  · by_contra h
    push Not at h
    have := hm (max a b) (max_choice a b) (by
      by_contra h5
      push Not at h5
      linarith) h2
    linarith

/-- `x` is between `a` and `b`. -/
def Mem (a b x : ℝ) : Prop := min a b ≤ x ∧ x ≤ max a b

open Classical in
theorem belongs_sharp (hn : V3.norm n = 1) (ht : 0 ≤ tol) {a b x : ℝ} (hab : a ≠ b) (hs : Sharp tol a b x) :
    belongs ⟨P o n a, P o n b⟩ (P o n x) tol = .ok (decide (Mem a b x)) := by
  rw [belongs_P hn ht hab]
  congr 1
  have : (min a b - tol ≤ x ∧ x ≤ max a b + tol) ↔ Mem a b x := ⟨hs, fun h => ⟨by linarith [h.1], by linarith [h.2]⟩⟩
  simp only [this]

open Classical in
theorem all_sharp (hn : V3.norm n = 1) (ht : 0 ≤ tol) {a b c d : ℝ} (hab : a ≠ b) (hc : Sharp tol a b c) (hd : Sharp tol a b d) :
    allBelong ⟨P o n a, P o n b⟩ tol [P o n c, P o n ((c + d) / 2), P o n d] = .ok (decide (Mem a b c ∧ Mem a b d)) := by
  simp only [allBelong]
  rw [belongs_sharp hn ht hab hc, belongs_sharp hn ht hab hd, belongs_P hn ht hab]
  by_cases h1 : Mem a b c
  · by_cases h2 : Mem a b d
    · have h3 : min a b - tol ≤ (c + d) / 2 ∧ (c + d) / 2 ≤ max a b + tol := ⟨by linarith [h1.1, h2.1], by linarith [h1.2, h2.2]⟩
      rw [decide_eq_true h3]
      simp [h1, h2, Except.bind]
    · generalize decide (min a b - tol ≤ (c + d) / 2 ∧ (c + d) / 2 ≤ max a b + tol) = z
      cases z <;> simp [h1, h2, Except.bind]
  · simp [h1, Except.bind]

/-! ## The shared section, in coordinates -/

/-- Two segments of the line are colinear. -/
theorem colinear_P (hn : V3.norm n = 1) {a b c d : ℝ} (hab : a ≠ b) (hcd : c ≠ d) :
    isColinear (P o n b - P o n a) (P o n d - P o n c) (1 / 10 ^ 5) = true := by
  have e : ∀ x y, P o n y - P o n x = V3.smul (y - x) n := by
    intro x y; unfold P; ext <;> simp <;> ring
  have h1 : |b - a| ≠ 0 := abs_ne_zero.mpr (sub_ne_zero.mpr hab.symm)
  have h2 : |d - c| ≠ 0 := abs_ne_zero.mpr (sub_ne_zero.mpr hcd.symm)
  unfold isColinear
  rw [e, e, Fillet.V3.norm_smul_abs, Fillet.V3.norm_smul_abs, hn, mul_one, mul_one, if_neg (by push Not; exact ⟨h1, h2⟩)]
  have : V3.dot (V3.smul (b - a) n) (V3.smul (d - c) n) = (b - a) * (d - c) * V3.dot n n := by
    simp only [V3.dot, V3.smul_x, V3.smul_y, V3.smul_z]; ring
  have hnn : V3.dot n n = 1 := by rw [← V3.norm_pow_two, hn]; norm_num
  have hval : |V3.dot (V3.smul (b - a) n) (V3.smul (d - c) n)| / |b - a| / |d - c| = 1 := by
    rw [this, hnn, mul_one, abs_mul]; field_simp
  have hcl : mathIsClose (|V3.dot (V3.smul (b - a) n) (V3.smul (d - c) n)| / |b - a| / |d - c|) 1 (1 / 10 ^ 5) := by
    rw [hval]; unfold mathIsClose; norm_num
  simp only [decide_eq_true_eq]
  exact hcl

theorem half_P (hn : V3.norm n = 1) {L : ℝ} (hL : 0 < L) :
    Seg3.pointAtAbscissa ⟨P o n 0, P o n L⟩ (Seg3.length ⟨P o n 0, P o n L⟩ * (1 / 2)) = some (P o n ((0 + L) / 2)) := by
  have hlen : Seg3.length ⟨P o n 0, P o n L⟩ = L := by
    unfold Seg3.length
    rw [dist_P hn, sub_zero, abs_of_pos hL]
  rw [hlen]
  have hsub : P o n L - P o n 0 = V3.smul L n := by unfold P; ext <;> simp
  have hne : P o n L - P o n 0 ≠ ⟨0, 0, 0⟩ := by
    rw [Ne, V3.sub_eq_zero_iff, P_inj hn]; exact hL.ne
  obtain ⟨m, hm⟩ := V3.unitVector_some hne
  obtain ⟨-, hme, -⟩ := V3.unitVector_spec hm
  rw [hsub, Fillet.V3.norm_smul_abs, hn, mul_one, abs_of_pos hL] at hme
  have hmn : m = n := by
    have hx := congrArg V3.x hme
    have hy := congrArg V3.y hme
    have hz := congrArg V3.z hme
    simp only [V3.smul_x, V3.smul_y, V3.smul_z] at hx hy hz
    ext
    · exact (mul_right_cancel₀ hL.ne' hx).symm
    · exact (mul_right_cancel₀ hL.ne' hy).symm
    · exact (mul_right_cancel₀ hL.ne' hz).symm
  unfold Seg3.pointAtAbscissa
  rw [hm, hmn]
  change some _ = some _
  congr 1
  unfold P
  ext <;> simp only [V3.add_x, V3.add_y, V3.add_z, V3.smul_x, V3.smul_y, V3.smul_z] <;> ring

/-- `split` on the line, at a point equal to an end or clearly inside. -/
theorem split_P (hn : V3.norm n = 1) (ht : 0 ≤ tol) {L x : ℝ} (h0 : Apart tol 0 x) (h1 : Apart tol L x) :
    Seg3.split ⟨P o n 0, P o n L⟩ (P o n x) tol =
      .ok (if x = 0 then (none, some ⟨P o n 0, P o n L⟩) else if x = L then (some ⟨P o n 0, P o n L⟩, none)
        else (some ⟨P o n 0, P o n x⟩, some ⟨P o n x, P o n L⟩)) := by
  unfold Seg3.split
  dsimp only
  rw [dist_P hn, dist_P hn]
  by_cases hx0 : x = 0
  · rw [if_pos (by rw [hx0, sub_self, abs_zero]; exact ht), if_pos hx0]
  · have e0 : ¬ |x - 0| ≤ tol := by
      rcases h0 with h | h
      · exact absurd h.symm hx0
      · rw [abs_sub_comm]; exact not_le.mpr h
    rw [if_neg e0, if_neg hx0]
    by_cases hxL : x = L
    · rw [if_pos (by rw [hxL, sub_self, abs_zero]; exact ht), if_pos hxL]
    · have e1 : ¬ |x - L| ≤ tol := by
        rcases h1 with h | h
        · exact absurd h.symm hxL
        · rw [abs_sub_comm]; exact not_le.mpr h
      rw [if_neg e1, if_neg hxL]
      unfold Seg3.mk?
      rw [if_neg (fun h => hx0 ((P_inj hn).mp h).symm), if_neg (fun h => hxL ((P_inj hn).mp h))]
      rfl

open Classical in
/-- The section that `_get_shared_section_from_split` keeps. -/
theorem fromSplit_P (hn : V3.norm n = 1) (ht : 0 ≤ tol) {L a b x : ℝ} (hab : a ≠ b) (hx : x = a ∨ x = b)
    (s0 : Sharp tol a b 0) (sL : Sharp tol a b L) :
    fromSplit ⟨P o n a, P o n b⟩ tol [some ⟨P o n 0, P o n x⟩, some ⟨P o n x, P o n L⟩] =
      .ok (if Mem a b 0 then [⟨P o n 0, P o n x⟩] else if Mem a b L then [⟨P o n x, P o n L⟩] else []) := by
  have sx : Sharp tol a b x := by rcases hx with rfl | rfl; exacts [sharp_left _ _, sharp_right _ _]
  have mx : Mem a b x := by rcases hx with rfl | rfl; exacts [⟨min_le_left _ _, le_max_left _ _⟩, ⟨min_le_right _ _, le_max_right _ _⟩]
  simp only [fromSplit, mid_P]
  rw [all_sharp hn ht hab s0 sx, all_sharp hn ht hab sx sL]
  by_cases h1 : Mem a b 0 <;> by_cases h2 : Mem a b L <;> simp [h1, h2, mx, Except.bind]

open Classical in
theorem splitShared_P (hn : V3.norm n = 1) (ht : 0 ≤ tol) {L a b x : ℝ} (hab : a ≠ b) (hx : x = a ∨ x = b)
    (h0 : Apart tol 0 x) (h1 : Apart tol L x) (s0 : Sharp tol a b 0) (sL : Sharp tol a b L) (hno : ¬ (Mem a b 0 ∧ Mem a b L)) :
    ((Seg3.split ⟨P o n 0, P o n L⟩ (P o n x) tol).bind fun es => fromSplit ⟨P o n a, P o n b⟩ tol [es.1, es.2]) =
      .ok (if x = 0 ∨ x = L then [] else if Mem a b 0 then [⟨P o n 0, P o n x⟩] else if Mem a b L then [⟨P o n x, P o n L⟩] else []) := by
  rw [split_P hn ht h0 h1]
  simp only [Except.bind]
  by_cases hx0 : x = 0
  · rw [if_pos hx0, if_pos (Or.inl hx0)]
    simp only [fromSplit, mid_P]
    rw [all_sharp hn ht hab s0 sL, decide_eq_false hno]
    simp [Except.bind]
  · rw [if_neg hx0]
    by_cases hxL : x = L
    · rw [if_pos hxL, if_pos (Or.inr hxL)]
      simp only [fromSplit, mid_P]
      rw [all_sharp hn ht hab s0 sL, decide_eq_false hno]
      simp [Except.bind]
    · rw [if_neg hxL, if_neg (by tauto)]
      exact fromSplit_P hn ht hab hx s0 sL

open Classical in
/-- The result of `get_shared_section` on the line. -/
theorem getShared_P (hn : V3.norm n = 1) (ht : 0 ≤ tol) {L a b : ℝ} (hL : 0 < L) (hab : a ≠ b)
    (a0 : Apart tol 0 a) (b0 : Apart tol 0 b) (aL : Apart tol L a) (bL : Apart tol L b) :
    getShared ⟨P o n 0, P o n L⟩ ⟨P o n a, P o n b⟩ tol = .ok (
      if Mem 0 L a ∧ Mem 0 L b then [⟨P o n a, P o n b⟩]
      else if Mem a b 0 ∧ Mem a b L then [⟨P o n 0, P o n L⟩]
      else if min a b < 0 ∧ 0 < max a b then [⟨P o n 0, P o n (max a b)⟩]
      else if min a b < L ∧ L < max a b then [⟨P o n (min a b), P o n L⟩]
      else []) := by
  have flip : ∀ {x y : ℝ}, Apart tol x y → Apart tol y x := by
    intro x y h; rcases h with h | h
    · exact .inl h.symm
    · right; rwa [abs_sub_comm]
  have sa : Sharp tol 0 L a := sharp_of_apart a0 aL
  have sb : Sharp tol 0 L b := sharp_of_apart b0 bL
  have s0 : Sharp tol a b 0 := sharp_of_apart (flip a0) (flip b0)
  have sL : Sharp tol a b L := sharp_of_apart (flip aL) (flip bL)
  have h0L : (0 : ℝ) ≠ L := hL.ne
  have mem0 : ∀ x, Mem 0 L x ↔ 0 ≤ x ∧ x ≤ L := by intro x; unfold Mem; rw [min_eq_left hL.le, max_eq_right hL.le]
  have hgen : genericShared ⟨P o n 0, P o n L⟩ ⟨P o n a, P o n b⟩ tol =
      if Mem 0 L a ∧ Mem 0 L b then .ok [⟨P o n a, P o n b⟩]
      else if Mem a b 0 ∧ Mem a b L then .ok [⟨P o n 0, P o n L⟩]
      else if Mem 0 L a then (Seg3.split ⟨P o n 0, P o n L⟩ (P o n a) tol).bind fun es => fromSplit ⟨P o n a, P o n b⟩ tol [es.1, es.2]
      else if Mem 0 L b then (Seg3.split ⟨P o n 0, P o n L⟩ (P o n b) tol).bind fun es => fromSplit ⟨P o n a, P o n b⟩ tol [es.1, es.2]
      else .error .notImplemented := by
    unfold genericShared
    rw [half_P hn hL, mid_P]
    dsimp only
    rw [all_sharp hn ht h0L sa sb, all_sharp hn ht hab s0 sL, belongs_sharp hn ht h0L sa, belongs_sharp hn ht h0L sb]
    simp only [Except.bind, decide_eq_true_eq]
  have hany : getShared ⟨P o n 0, P o n L⟩ ⟨P o n a, P o n b⟩ tol =
      if Mem 0 L a ∨ Mem 0 L b ∨ Mem a b 0 ∨ Mem a b L then genericShared ⟨P o n 0, P o n L⟩ ⟨P o n a, P o n b⟩ tol else .ok [] := by
    unfold getShared
    dsimp only
    rw [colinear_P hn h0L hab, if_neg (by simp)]
    simp only [anyBelong]
    rw [belongs_sharp hn ht h0L sa, belongs_sharp hn ht h0L sb, belongs_sharp hn ht hab s0, belongs_sharp hn ht hab sL]
    by_cases h1 : Mem 0 L a <;> by_cases h2 : Mem 0 L b <;> by_cases h3 : Mem a b 0 <;> by_cases h4 : Mem a b L <;>
      simp [h1, h2, h3, h4, Except.bind]
  rw [hany, hgen]
  by_cases A : Mem 0 L a ∧ Mem 0 L b
  · rw [if_pos (.inl A.1), if_pos A, if_pos A]
  by_cases B : Mem a b 0 ∧ Mem a b L
  · rw [if_pos (by tauto), if_neg A, if_pos B, if_neg A, if_pos B]
  rw [if_neg A, if_neg B, if_neg A, if_neg B, splitShared_P hn ht hab (.inl rfl) a0 aL s0 sL B, splitShared_P hn ht hab (.inr rfl) b0 bL s0 sL B]
  rcases le_total a b with h | h
  · simp only [Mem, min_eq_left h, max_eq_right h, min_eq_left hL.le, max_eq_right hL.le] at *
    split_ifs <;> first | rfl | (exfalso; grind)
  · simp only [Mem, min_eq_right h, max_eq_left h, min_eq_left hL.le, max_eq_right hL.le] at *
    split_ifs <;> first | rfl | (exfalso; grind)

/-! ## The theorems -/

/-- Both ends of the second segment are on the line of the first one (specification). -/
def SameLine (s t : Seg3) : Prop := OnLine3 s.start s.stop t.start ∧ OnLine3 s.start s.stop t.stop

/-- Each end of the first segment is equal to each end of the second one, or more than `tol` away from it (specification). -/
def ClearEnds (tol : ℝ) (s t : Seg3) : Prop :=
  ∀ e, e = s.start ∨ e = s.stop → ∀ f, f = t.start ∨ f = t.stop → e = f ∨ tol < V3.pointDistance e f

/-- The segments have at least two points in common (specification). -/
def Overlap (s t : Seg3) : Prop :=
  ∃ p q, p ≠ q ∧ OnSeg3 s.start s.stop p ∧ OnSeg3 s.start s.stop q ∧ OnSeg3 t.start t.stop p ∧ OnSeg3 t.start t.stop q

/-- Two segments of a line have coordinates on it. -/
theorem coords {s t : Seg3} (hs : s.start ≠ s.stop) (h : SameLine s t) :
    ∃ o n L a b, V3.norm n = 1 ∧ 0 < L ∧ s = ⟨P o n 0, P o n L⟩ ∧ t = ⟨P o n a, P o n b⟩ := by
  obtain ⟨n, hn⟩ := V3.unitVector_some (u := s.stop - s.start) (by rw [Ne, V3.sub_eq_zero_iff]; exact hs)
  obtain ⟨hN, hne, hnn⟩ := V3.unitVector_spec hn
  have hnorm : V3.norm n = 1 := by
    unfold V3.norm
    have : n.x * n.x + n.y * n.y + n.z * n.z = 1 := hnn
    rw [this, Real.sqrt_one]
  obtain ⟨L, hL⟩ : ∃ L, L = V3.norm (s.stop - s.start) := ⟨_, rfl⟩
  rw [← hL] at hN hne
  have hx := congrArg V3.x hne
  have hy := congrArg V3.y hne
  have hz := congrArg V3.z hne
  simp only [V3.sub_x, V3.sub_y, V3.sub_z, V3.smul_x, V3.smul_y, V3.smul_z] at hx hy hz
  have key : ∀ q, OnLine3 s.start s.stop q → ∃ a, q = P s.start n a := by
    rintro q ⟨r, r1, r2, r3⟩
    refine ⟨r * L, ?_⟩
    unfold P
    ext <;> simp only [V3.add_x, V3.add_y, V3.add_z, V3.smul_x, V3.smul_y, V3.smul_z]
    · rw [r1, hx]; ring
    · rw [r2, hy]; ring
    · rw [r3, hz]; ring
  obtain ⟨a, ha⟩ := key _ h.1
  obtain ⟨b, hb⟩ := key _ h.2
  refine ⟨s.start, n, L, a, b, hnorm, hN, ?_, ?_⟩
  · have e1 : s.start = P s.start n 0 := by unfold P; ext <;> simp
    have e2 : s.stop = P s.start n L := by
      unfold P
      ext <;> simp only [V3.add_x, V3.add_y, V3.add_z, V3.smul_x, V3.smul_y, V3.smul_z] <;> linarith
    rcases s with ⟨s1, s2⟩
    dsimp only at *
    rw [← e1, ← e2]
  · rcases t with ⟨t1, t2⟩
    dsimp only at *
    rw [← ha, ← hb]

theorem apart_of {L a b : ℝ} (hn : V3.norm n = 1) (hc : ClearEnds tol ⟨P o n 0, P o n L⟩ ⟨P o n a, P o n b⟩) :
    Apart tol 0 a ∧ Apart tol 0 b ∧ Apart tol L a ∧ Apart tol L b := by
  have key : ∀ x y, x = 0 ∨ x = L → y = a ∨ y = b → Apart tol x y := by
    intro x y hx hy
    rcases hc (P o n x) (by rcases hx with rfl | rfl; exacts [.inl rfl, .inr rfl]) (P o n y) (by rcases hy with rfl | rfl; exacts [.inl rfl, .inr rfl]) with h | h
    · exact .inl ((P_inj hn).mp h)
    · rw [dist_P hn] at h; exact .inr h
  exact ⟨key _ _ (.inl rfl) (.inl rfl), key _ _ (.inl rfl) (.inr rfl), key _ _ (.inr rfl) (.inl rfl), key _ _ (.inr rfl) (.inr rfl)⟩

/-- The overlap in coordinates. -/
theorem overlap_P (hn : V3.norm n = 1) {L a b : ℝ} (hL : 0 < L) :
    Overlap ⟨P o n 0, P o n L⟩ ⟨P o n a, P o n b⟩ ↔ max 0 (min a b) < min L (max a b) := by
  unfold Overlap
  dsimp only
  constructor
  · rintro ⟨p, q, hpq, h1, h2, h3, h4⟩
    obtain ⟨x, rfl⟩ := onSeg_coord h1
    obtain ⟨y, rfl⟩ := onSeg_coord h2
    rw [onSeg_P hn] at h1 h2 h3 h4
    rw [min_eq_left hL.le, max_eq_right hL.le] at h1 h2
    have hne : x ≠ y := fun h => hpq (by rw [h])
    rcases lt_or_gt_of_ne hne with h | h
    · exact lt_of_le_of_lt (max_le h1.1 h3.1) (h.trans_le (le_min h2.2 h4.2))
    · exact lt_of_le_of_lt (max_le h2.1 h4.1) (h.trans_le (le_min h1.2 h3.2))
  · intro h
    have m1 : max 0 (min a b) ≤ L := (h.le).trans (min_le_left _ _)
    have m2 : max 0 (min a b) ≤ max a b := (h.le).trans (min_le_right _ _)
    have m3 : 0 ≤ min L (max a b) := (le_max_left _ _).trans h.le
    have m4 : min a b ≤ min L (max a b) := (le_max_right _ _).trans h.le
    refine ⟨P o n (max 0 (min a b)), P o n (min L (max a b)), fun h' => h.ne ((P_inj hn).mp h'), ?_, ?_, ?_, ?_⟩ <;> rw [onSeg_P hn]
    · rw [min_eq_left hL.le, max_eq_right hL.le]; exact ⟨le_max_left _ _, m1⟩
    · rw [min_eq_left hL.le, max_eq_right hL.le]; exact ⟨m3, min_le_left _ _⟩
    · exact ⟨le_max_right _ _, m2⟩
    · exact ⟨m4, min_le_right _ _⟩

/-- The result in coordinates: a segment between the bounds of the overlap, in one direction or the other, or nothing. -/
theorem getShared_bounds (hn : V3.norm n = 1) (ht : 0 ≤ tol) {L a b : ℝ} (hL : 0 < L) (hab : a ≠ b)
    (hc : Apart tol 0 a ∧ Apart tol 0 b ∧ Apart tol L a ∧ Apart tol L b) :
    (max 0 (min a b) < min L (max a b) → ∃ c d, getShared ⟨P o n 0, P o n L⟩ ⟨P o n a, P o n b⟩ tol = .ok [⟨P o n c, P o n d⟩] ∧
      min c d = max 0 (min a b) ∧ max c d = min L (max a b)) ∧
    (¬ max 0 (min a b) < min L (max a b) → getShared ⟨P o n 0, P o n L⟩ ⟨P o n a, P o n b⟩ tol = .ok []) := by
  obtain ⟨a0, b0, aL, bL⟩ := hc
  classical
  rw [getShared_P hn ht hL hab a0 b0 aL bL]
  by_cases A : Mem 0 L a ∧ Mem 0 L b
  · rw [if_pos A]
    obtain ⟨⟨A1, A2⟩, A3, A4⟩ := A
    rw [min_eq_left hL.le] at A1 A3
    rw [max_eq_right hL.le] at A2 A4
    have e1 : max 0 (min a b) = min a b := max_eq_right (le_min A1 A3)
    have e2 : min L (max a b) = max a b := min_eq_right (max_le A2 A4)
    rw [e1, e2]
    refine ⟨fun _ => ⟨a, b, rfl, rfl, rfl⟩, fun h => absurd (min_lt_max.mpr hab) h⟩
  · rw [if_neg A]
    by_cases B : Mem a b 0 ∧ Mem a b L
    · rw [if_pos B]
      have e1 : max 0 (min a b) = 0 := max_eq_left B.1.1
      have e2 : min L (max a b) = L := min_eq_left B.2.2
      rw [e1, e2]
      exact ⟨fun _ => ⟨0, L, rfl, min_eq_left hL.le, max_eq_right hL.le⟩, fun h => absurd hL h⟩
    · rw [if_neg B]
      by_cases C : min a b < 0 ∧ 0 < max a b
      · rw [if_pos C]
        have hlt : max a b < L := by
          by_contra h
          push Not at h
          exact B ⟨⟨C.1.le, C.2.le⟩, by linarith [C.1], h⟩
        have e1 : max 0 (min a b) = 0 := max_eq_left C.1.le
        have e2 : min L (max a b) = max a b := min_eq_right hlt.le
        rw [e1, e2]
        exact ⟨fun _ => ⟨0, max a b, rfl, min_eq_left C.2.le, max_eq_right C.2.le⟩, fun h => absurd C.2 h⟩
      · rw [if_neg C]
        by_cases D : min a b < L ∧ L < max a b
        · rw [if_pos D]
          have hge : 0 ≤ min a b := by
            by_contra h
            push Not at h
            exact C ⟨h, hL.trans D.2⟩
          have e1 : max 0 (min a b) = min a b := max_eq_right hge
          have e2 : min L (max a b) = L := min_eq_left D.2.le
          rw [e1, e2]
          exact ⟨fun _ => ⟨min a b, L, rfl, min_eq_left D.1.le, max_eq_right D.1.le⟩, fun h => absurd D.1 h⟩
        · rw [if_neg D]
          refine ⟨fun h => ?_, fun _ => rfl⟩
          exfalso
          have h1 : 0 < max a b := (le_max_left _ _).trans_lt (h.trans_le (min_le_right _ _))
          have h2 : min a b < L := (le_max_right _ _).trans_lt (h.trans_le (min_le_left _ _))
          have h3 : 0 ≤ min a b := by
            by_contra h'
            push Not at h'
            exact C ⟨h', h1⟩
          have h4 : max a b ≤ L := by
            by_contra h'
            push Not at h'
            exact D ⟨h2, h'⟩
          apply A
          unfold Mem
          rw [min_eq_left hL.le, max_eq_right hL.le]
          exact ⟨⟨h3.trans (min_le_left _ _), (le_max_left _ _).trans h4⟩, h3.trans (min_le_right _ _), (le_max_right _ _).trans h4⟩

/-- C159: full statement: for any two segments, `get_shared_section` gives the segment of their common points when they have more than one,
and nothing otherwise. -/
def C159_shared_full_statement : Prop :=
  ∀ (s t : Seg3) (tol : ℝ), s.start ≠ s.stop → t.start ≠ t.stop → 0 < tol →
    ∃ l, getShared s t tol = .ok l ∧
      (Overlap s t → ∃ x, l = [x] ∧ ∀ p, OnSeg3 x.start x.stop p ↔ OnSeg3 s.start s.stop p ∧ OnSeg3 t.start t.stop p) ∧
      (¬ Overlap s t → l = [])

/-- C159: two segments of one line whose ends are equal or more than the tolerance apart: `get_shared_section` gives one segment, made
exactly of the common points, when there are at least two of them, and nothing otherwise. -/
theorem C159_shared_partial (s t : Seg3) (hs : s.start ≠ s.stop) (ht : t.start ≠ t.stop) (h0 : 0 ≤ tol) (hl : SameLine s t)
    (hc : ClearEnds tol s t) :
    ∃ l, getShared s t tol = .ok l ∧
      (Overlap s t → ∃ x, l = [x] ∧ x.start ≠ x.stop ∧
        ∀ p, OnSeg3 x.start x.stop p ↔ OnSeg3 s.start s.stop p ∧ OnSeg3 t.start t.stop p) ∧
      (¬ Overlap s t → l = []) := by
  obtain ⟨o, n, L, a, b, hn, hL, rfl, rfl⟩ := coords hs hl
  have hab : a ≠ b := fun h => ht (by rw [h])
  obtain ⟨g1, g2⟩ := getShared_bounds (o := o) hn h0 hL hab (apart_of hn hc)
  rw [overlap_P hn hL]
  by_cases h : max 0 (min a b) < min L (max a b)
  · obtain ⟨c, d, hg, e1, e2⟩ := g1 h
    refine ⟨_, hg, fun _ => ⟨_, rfl, ?_, ?_⟩, fun h' => absurd h h'⟩
    · dsimp only
      rw [Ne, P_inj hn]
      rintro rfl
      rw [min_self] at e1
      rw [max_self] at e2
      linarith
    · intro p
      dsimp only
      constructor
      · intro hp
        obtain ⟨x, rfl⟩ := onSeg_coord hp
        rw [onSeg_P hn, e1, e2] at hp
        rw [onSeg_P hn, onSeg_P hn, min_eq_left hL.le, max_eq_right hL.le]
        exact ⟨⟨(le_max_left _ _).trans hp.1, hp.2.trans (min_le_left _ _)⟩, (le_max_right _ _).trans hp.1, hp.2.trans (min_le_right _ _)⟩
      · rintro ⟨hp, hp2⟩
        obtain ⟨x, rfl⟩ := onSeg_coord hp
        rw [onSeg_P hn] at hp hp2
        rw [min_eq_left hL.le, max_eq_right hL.le] at hp
        rw [onSeg_P hn, e1, e2]
        exact ⟨max_le hp.1 hp2.1, le_min hp.2 hp2.2⟩
  · exact ⟨_, g2 h, fun h' => absurd h' h, fun _ => rfl⟩

end Volmdlr.Shared
