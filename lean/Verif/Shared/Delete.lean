import Verif.Shared.Props

/-!
# C159: disjoint and oblique segments, `delete_shared_section`
-/

namespace Volmdlr.Shared

open Volmdlr.Angle Volmdlr.Intersect

variable {o n : V3 ℝ} {tol : ℝ}

/-! ## No shared section -/

/-- `point_belongs` of a point farther than the tolerance. -/
theorem belongs_far (e : Seg3) (he : e.start ≠ e.stop) (h0 : 0 ≤ tol) (p : V3 ℝ) (h : ∀ q, OnSeg3 e.start e.stop q → tol < V3.pointDistance q p) :
    belongs e p tol = .ok false := by
  obtain ⟨d, q, hd, hq, hdq, -⟩ := (C07_linesegment3d_distance e.start e.stop p).2 he
  unfold belongs
  rw [hd]
  dsimp only
  have : ¬ mathIsClose d 0 tol := by
    rw [mathIsClose_zero h0, abs_of_nonneg (by rw [hdq]; exact V3.norm_nonneg _), hdq, not_le]
    exact h q hq
  simp only [this, decide_false]

theorem start_on (e : Seg3) : OnSeg3 e.start e.stop e.start := ⟨0, le_refl _, zero_le_one, by ring, by ring, by ring⟩
theorem stop_on (e : Seg3) : OnSeg3 e.start e.stop e.stop := ⟨1, zero_le_one, le_refl _, by ring, by ring, by ring⟩

/-- C159: segments all of whose points are more than the tolerance apart have no shared section, and nothing is deleted. -/
theorem C159_disjoint (s t : Seg3) (hs : s.start ≠ s.stop) (ht : t.start ≠ t.stop) (h0 : 0 ≤ tol)
    (h : ∀ p q, OnSeg3 s.start s.stop p → OnSeg3 t.start t.stop q → tol < V3.pointDistance p q) :
    getShared s t tol = .ok [] ∧ deleteShared s t tol = .ok [s] := by
  have hg : getShared s t tol = .ok [] := by
    unfold getShared
    split_ifs with hcol
    · rfl
    · simp only [anyBelong]
      rw [belongs_far s hs h0 t.start (fun q hq => h q _ hq (start_on t)), belongs_far s hs h0 t.stop (fun q hq => h q _ hq (stop_on t)),
        belongs_far t ht h0 s.start (fun q hq => by rw [V3.pointDistance_symm]; exact h _ q (start_on s) hq),
        belongs_far t ht h0 s.stop (fun q hq => by rw [V3.pointDistance_symm]; exact h _ q (stop_on s) hq)]
      simp [Except.bind]
  refine ⟨hg, ?_⟩
  unfold deleteShared
  rw [hg]
  rfl

/-- C159: segments whose directions make an angle of cosine below `1 - 2e-5` have no shared section, and nothing is deleted. -/
theorem C159_oblique (s t : Seg3) (hs : s.start ≠ s.stop) (ht : t.start ≠ t.stop)
    (h : |V3.dot (s.stop - s.start) (t.stop - t.start)| <
      (1 - 2 / 10 ^ 5) * (V3.pointDistance s.start s.stop * V3.pointDistance t.start t.stop)) :
    getShared s t tol = .ok [] ∧ deleteShared s t tol = .ok [s] := by
  have hcol : isColinear (s.stop - s.start) (t.stop - t.start) (1 / 10 ^ 5) = false := by
    have h1 : 0 < V3.norm (s.stop - s.start) :=
      lt_of_le_of_ne (V3.norm_nonneg _) (fun e => hs ((V3.sub_eq_zero_iff _ _).mp ((V3.norm_eq_zero_iff _).mp e.symm)))
    have h2 : 0 < V3.norm (t.stop - t.start) :=
      lt_of_le_of_ne (V3.norm_nonneg _) (fun e => ht ((V3.sub_eq_zero_iff _ _).mp ((V3.norm_eq_zero_iff _).mp e.symm)))
    rw [V3.pointDistance_symm s.start, V3.pointDistance_symm t.start] at h
    unfold V3.pointDistance at h
    unfold isColinear
    rw [if_neg (by push Not; exact ⟨h1.ne', h2.ne'⟩)]
    obtain ⟨x, hx⟩ : ∃ x, x = |V3.dot (s.stop - s.start) (t.stop - t.start)| / V3.norm (s.stop - s.start) / V3.norm (t.stop - t.start) := ⟨_, rfl⟩
    rw [← hx]
    have hx0 : 0 ≤ x := by rw [hx]; positivity
    have hx1 : x < 1 - 2 / 10 ^ 5 := by
      rw [hx, div_div, div_lt_iff₀ (mul_pos h1 h2)]; exact h
    have hn : ¬ mathIsClose x 1 (1 / 10 ^ 5) := by
      unfold mathIsClose
      rw [abs_of_nonneg hx0, abs_one, max_eq_right (by linarith : x ≤ 1), abs_of_neg (by linarith), not_le]
      norm_num at hx1 ⊢
      linarith
    simp only [hn, decide_false]
  have hg : getShared s t tol = .ok [] := by unfold getShared; rw [if_pos hcol]
  refine ⟨hg, ?_⟩
  unfold deleteShared
  rw [hg]
  rfl

/-! ## Deletion, in coordinates -/

open Classical in
/-- The pieces kept when a section of the segment is deleted: those of one split. -/
theorem without_split (hn : V3.norm n = 1) (h0 : 0 ≤ tol) {L c m : ℝ} (hL : 0 < L) (hc0 : 0 ≤ c) (hcL : c ≤ L)
    (a0 : Apart (1 / 10 ^ 6) 0 c) (aL : Apart (1 / 10 ^ 6) L c) (hm0 : 0 ≤ m) (hmL : m ≤ L) (hm : c + tol < m ∨ m < c - tol) (rest : List (Option Seg3)) :
    ∃ es, Seg3.split ⟨P o n 0, P o n L⟩ (P o n c) (1 / 10 ^ 6) = .ok es ∧
      without (P o n m) tol (es.1 :: es.2 :: rest) = (without (P o n m) tol rest).map fun l =>
        (if c + tol < m ∧ 0 < c then [⟨P o n 0, P o n c⟩] else if m < c - tol ∧ c < L then [⟨P o n c, P o n L⟩] else []) ++ l := by
  refine ⟨_, split_P hn (by norm_num) a0 aL, ?_⟩
  have hs : belongs ⟨P o n 0, P o n L⟩ (P o n m) tol = .ok true := by
    rw [belongs_P hn h0 hL.ne, min_eq_left hL.le, max_eq_right hL.le, decide_eq_true ⟨by linarith, by linarith⟩]
  by_cases c0 : c = 0
  · rw [if_pos c0]
    simp only [without, hs]
    have : ¬ (c + tol < m ∧ 0 < c) := by rw [c0]; rintro ⟨-, h⟩; exact lt_irrefl _ h
    rw [if_neg this]
    have : ¬ (m < c - tol ∧ c < L) := by rintro ⟨h, -⟩; linarith
    rw [if_neg this]
    simp only [List.nil_append, Except.bind, if_true]
  · rw [if_neg c0]
    have hcpos : 0 < c := lt_of_le_of_ne hc0 (Ne.symm c0)
    by_cases cL : c = L
    · rw [if_pos cL]
      simp only [without, hs]
      have : ¬ (c + tol < m ∧ 0 < c) := by rintro ⟨h, -⟩; linarith
      rw [if_neg this]
      have : ¬ (m < c - tol ∧ c < L) := by rw [cL]; rintro ⟨-, h⟩; exact lt_irrefl _ h
      rw [if_neg this]
      simp only [List.nil_append, Except.bind, if_true]
    · rw [if_neg cL]
      have hcL' : c < L := lt_of_le_of_ne hcL cL
      simp only [without]
      rw [belongs_P hn h0 hcpos.ne, belongs_P hn h0 hcL'.ne, min_eq_left hc0, max_eq_right hc0, min_eq_left hcL, max_eq_right hcL]
      rcases hm with hm | hm
      · rw [decide_eq_false (by rintro ⟨-, h⟩; linarith : ¬ (0 - tol ≤ m ∧ m ≤ c + tol)),
          decide_eq_true (⟨by linarith, by linarith⟩ : c - tol ≤ m ∧ m ≤ L + tol), if_pos ⟨hm, hcpos⟩]
        cases without (P o n m) tol rest <;> simp [Except.bind, Except.map]
      · rw [decide_eq_true (⟨by linarith, by linarith⟩ : 0 - tol ≤ m ∧ m ≤ c + tol),
          decide_eq_false (by rintro ⟨h, -⟩; linarith : ¬ (c - tol ≤ m ∧ m ≤ L + tol)), if_neg (by rintro ⟨h, -⟩; linarith), if_pos ⟨hm, hcL'⟩]
        cases without (P o n m) tol rest <;> simp [Except.bind, Except.map]

theorem length_P (hn : V3.norm n = 1) (x y : ℝ) : Seg3.length ⟨P o n x, P o n y⟩ = |y - x| := by
  unfold Seg3.length; exact dist_P hn y x

theorem Apart.mono {t1 t2 x y : ℝ} (h : Apart t2 x y) (h12 : t1 ≤ t2) : Apart t1 x y := by
  rcases h with h | h
  · exact .inl h
  · exact .inr (h12.trans_lt h)

/-- What is left, in coordinates. -/
theorem delete_P (hn : V3.norm n = 1) (h0 : 0 ≤ tol) {L a b lo hi : ℝ} (hL : 0 < L) (hab : a ≠ b)
    (hc : Apart (max tol (1 / 10 ^ 6)) 0 a ∧ Apart (max tol (1 / 10 ^ 6)) 0 b ∧ Apart (max tol (1 / 10 ^ 6)) L a ∧ Apart (max tol (1 / 10 ^ 6)) L b)
    (hlo : lo = max 0 (min a b)) (hhi : hi = min L (max a b)) (hlen : 2 * max tol (1 / 10 ^ 6) < hi - lo) :
    ∃ c d l, getShared ⟨P o n 0, P o n L⟩ ⟨P o n a, P o n b⟩ tol = .ok [⟨P o n c, P o n d⟩] ∧
      deleteShared ⟨P o n 0, P o n L⟩ ⟨P o n a, P o n b⟩ tol = .ok l ∧ |d - c| = hi - lo ∧
      (∀ r, r ∈ l ↔ (0 < lo ∧ r = ⟨P o n 0, P o n lo⟩) ∨ (hi < L ∧ r = ⟨P o n hi, P o n L⟩)) ∧
      (l.map Seg3.length).sum = L - (hi - lo) := by
  have hT : tol ≤ max tol (1 / 10 ^ 6) := le_max_left _ _
  have hT6 : 1 / 10 ^ 6 ≤ max tol (1 / 10 ^ 6) := le_max_right _ _
  have hT0 : 0 ≤ max tol (1 / 10 ^ 6) := h0.trans hT
  obtain ⟨a0, b0, aL, bL⟩ := hc
  obtain ⟨c, d, hg, e1, e2⟩ := (getShared_bounds (o := o) hn h0 hL hab ⟨a0.mono hT, b0.mono hT, aL.mono hT, bL.mono hT⟩).1 (by linarith)
  rw [← hlo] at e1
  rw [← hhi] at e2
  have hlo0 : 0 ≤ lo := hlo ▸ le_max_left _ _
  have hhiL : hi ≤ L := hhi ▸ min_le_left _ _
  have ap0L : Apart (1 / 10 ^ 6) 0 L := by
    right; rw [zero_sub, abs_neg, abs_of_pos hL]; linarith
  have apL0 : Apart (1 / 10 ^ 6) L 0 := by
    right; rw [sub_zero, abs_of_pos hL]; linarith
  have apself : ∀ x, Apart (1 / 10 ^ 6) x x := fun x => .inl rfl
  have ap : ∀ x, x = lo ∨ x = hi → Apart (1 / 10 ^ 6) 0 x ∧ Apart (1 / 10 ^ 6) L x := by
    have hmem : ∀ x, x = lo ∨ x = hi → x = 0 ∨ x = L ∨ x = a ∨ x = b := by
      rintro x (rfl | rfl)
      · rcases max_choice 0 (min a b) with h | h
        · left; rw [hlo, h]
        · rcases min_choice a b with h' | h'
          · right; right; left; rw [hlo, h, h']
          · right; right; right; rw [hlo, h, h']
      · rcases min_choice L (max a b) with h | h
        · right; left; rw [hhi, h]
        · rcases max_choice a b with h' | h'
          · right; right; left; rw [hhi, h, h']
          · right; right; right; rw [hhi, h, h']
    intro x hx
    rcases hmem x hx with rfl | rfl | rfl | rfl
    · exact ⟨apself _, apL0⟩
    · exact ⟨ap0L, apself _⟩
    · exact ⟨a0.mono hT6, aL.mono hT6⟩
    · exact ⟨b0.mono hT6, bL.mono hT6⟩
  have hcd : (c = lo ∧ d = hi) ∨ (c = hi ∧ d = lo) := by
    rcases le_total c d with h | h
    · left; rw [min_eq_left h] at e1; rw [max_eq_right h] at e2; exact ⟨e1, e2⟩
    · right; rw [min_eq_right h] at e1; rw [max_eq_left h] at e2; exact ⟨e2, e1⟩
  have l1 : Seg3.length ⟨P o n 0, P o n lo⟩ = lo := by rw [length_P hn, sub_zero, abs_of_nonneg hlo0]
  have l2 : Seg3.length ⟨P o n hi, P o n L⟩ = L - hi := by rw [length_P hn, abs_of_nonneg (by linarith)]
  have hmid : (c + d) / 2 = (lo + hi) / 2 := by rcases hcd with ⟨rfl, rfl⟩ | ⟨rfl, rfl⟩ <;> ring
  obtain ⟨es2, hs2, hw2⟩ := without_split (o := o) (tol := tol) (L := L) (c := d) (m := (lo + hi) / 2) hn h0 hL
    (by rcases hcd with ⟨rfl, rfl⟩ | ⟨rfl, rfl⟩ <;> linarith) (by rcases hcd with ⟨rfl, rfl⟩ | ⟨rfl, rfl⟩ <;> linarith)
    (ap d (by tauto)).1 (ap d (by tauto)).2 (by linarith) (by linarith)
    (by rcases hcd with ⟨rfl, rfl⟩ | ⟨rfl, rfl⟩ <;> [right; left] <;> linarith) []
  obtain ⟨es1, hs1, hw1⟩ := without_split (o := o) (tol := tol) (L := L) (c := c) (m := (lo + hi) / 2) hn h0 hL
    (by rcases hcd with ⟨rfl, rfl⟩ | ⟨rfl, rfl⟩ <;> linarith) (by rcases hcd with ⟨rfl, rfl⟩ | ⟨rfl, rfl⟩ <;> linarith)
    (ap c (by tauto)).1 (ap c (by tauto)).2 (by linarith) (by linarith)
    (by rcases hcd with ⟨rfl, rfl⟩ | ⟨rfl, rfl⟩ <;> [left; right] <;> linarith) [es2.1, es2.2]
  have hdel : deleteShared ⟨P o n 0, P o n L⟩ ⟨P o n a, P o n b⟩ tol = without (P o n ((lo + hi) / 2)) tol [es1.1, es1.2, es2.1, es2.2] := by
    unfold deleteShared
    rw [hg]
    simp only [Except.bind]
    rw [hs1, hs2, mid_P, hmid]
  rw [hw1, hw2] at hdel
  simp only [without, Except.map] at hdel
  refine ⟨c, d, _, hg, hdel, ?_, ?_, ?_⟩
  · rcases hcd with ⟨rfl, rfl⟩ | ⟨rfl, rfl⟩
    · rw [abs_of_nonneg (by linarith)]
    · rw [abs_of_nonpos (by linarith)]; ring
  · intro r
    rcases hcd with ⟨rfl, rfl⟩ | ⟨rfl, rfl⟩
    · have q1 : c + tol < (c + d) / 2 := by linarith
      have q2 : (c + d) / 2 < d - tol := by linarith
      have q3 : ¬ (d + tol < (c + d) / 2) := by linarith
      have q4 : ¬ ((c + d) / 2 < c - tol) := by linarith
      by_cases z1 : 0 < c <;> by_cases z2 : d < L <;> simp [q1, q2, q3, q4, z1, z2]
    · have q1 : d + tol < (d + c) / 2 := by linarith
      have q2 : (d + c) / 2 < c - tol := by linarith
      have q3 : ¬ (c + tol < (d + c) / 2) := by linarith
      have q4 : ¬ ((d + c) / 2 < d - tol) := by linarith
      by_cases z1 : 0 < d <;> by_cases z2 : c < L <;> simp [q1, q2, q3, q4, z1, z2, or_comm]
  · rcases hcd with ⟨rfl, rfl⟩ | ⟨rfl, rfl⟩
    · have q1 : c + tol < (c + d) / 2 := by linarith
      have q2 : (c + d) / 2 < d - tol := by linarith
      have q3 : ¬ (d + tol < (c + d) / 2) := by linarith
      have q4 : ¬ ((c + d) / 2 < c - tol) := by linarith
      by_cases z1 : 0 < c <;> by_cases z2 : d < L <;> simp [q1, q2, q3, q4, z1, z2, l1, l2] <;> linarith
    · have q1 : d + tol < (d + c) / 2 := by linarith
      have q2 : (d + c) / 2 < c - tol := by linarith
      have q3 : ¬ (c + tol < (d + c) / 2) := by linarith
      have q4 : ¬ ((d + c) / 2 < d - tol) := by linarith
      by_cases z1 : 0 < d <;> by_cases z2 : c < L <;> simp [q1, q2, q3, q4, z1, z2, l1, l2] <;> linarith

/-- C159: two segments of one line, ends equal or apart by more than the tolerances (the given one and the 1e-6 of `split`), with common
points more than twice these tolerances apart: `delete_shared_section` leaves segments that cover every point of the first segment that is
not on the second, contain points of the first only, meet the second at its ends only, and whose lengths add up, with the one of the shared
section, to the length of the first. -/
theorem C159_delete_partial (s t : Seg3) (hs : s.start ≠ s.stop) (ht : t.start ≠ t.stop) (h0 : 0 ≤ tol) (hl : SameLine s t)
    (hc : ClearEnds (max tol (1 / 10 ^ 6)) s t) (p q : V3 ℝ) (hps : OnSeg3 s.start s.stop p) (hpt : OnSeg3 t.start t.stop p)
    (hqs : OnSeg3 s.start s.stop q) (hqt : OnSeg3 t.start t.stop q) (hpq : 2 * max tol (1 / 10 ^ 6) < V3.pointDistance p q) :
    ∃ x l, getShared s t tol = .ok [x] ∧ deleteShared s t tol = .ok l ∧
      (∀ r, OnSeg3 s.start s.stop r → ¬ OnSeg3 t.start t.stop r → ∃ e ∈ l, OnSeg3 e.start e.stop r) ∧
      (∀ e ∈ l, ∀ r, OnSeg3 e.start e.stop r → OnSeg3 s.start s.stop r) ∧
      (∀ e ∈ l, ∀ r, OnSeg3 e.start e.stop r → OnSeg3 t.start t.stop r → r = t.start ∨ r = t.stop) ∧
      (l.map Seg3.length).sum + x.length = s.length := by
  obtain ⟨o, n, L, a, b, hn, hL, rfl, rfl⟩ := coords hs hl
  have hab : a ≠ b := fun h => ht (by rw [h])
  dsimp only at *
  have hlen : 2 * max tol (1 / 10 ^ 6) < min L (max a b) - max 0 (min a b) := by
    obtain ⟨x, rfl⟩ := onSeg_coord hps
    obtain ⟨y, rfl⟩ := onSeg_coord hqs
    rw [onSeg_P hn] at hps hpt hqs hqt
    rw [min_eq_left hL.le, max_eq_right hL.le] at hps hqs
    rw [dist_P hn] at hpq
    have u1 : max 0 (min a b) ≤ x := max_le hps.1 hpt.1
    have u2 : max 0 (min a b) ≤ y := max_le hqs.1 hqt.1
    have u3 : x ≤ min L (max a b) := le_min hps.2 hpt.2
    have u4 : y ≤ min L (max a b) := le_min hqs.2 hqt.2
    have : |x - y| ≤ min L (max a b) - max 0 (min a b) := abs_le.mpr ⟨by linarith, by linarith⟩
    linarith
  obtain ⟨c, d, l, hg, hd, hcd, hmem, hsum⟩ := delete_P (o := o) hn h0 hL hab (apart_of hn hc) rfl rfl hlen
  obtain ⟨lo, hlo⟩ : ∃ lo, lo = max 0 (min a b) := ⟨_, rfl⟩
  obtain ⟨hi, hhi⟩ : ∃ hi, hi = min L (max a b) := ⟨_, rfl⟩
  rw [← hlo, ← hhi] at hcd hmem hsum hlen
  have hT0 : 0 ≤ max tol (1 / 10 ^ 6) := h0.trans (le_max_left _ _)
  have hlo0 : 0 ≤ lo := hlo ▸ le_max_left _ _
  have hloa : min a b ≤ lo := hlo ▸ le_max_right _ _
  have hhiL : hi ≤ L := hhi ▸ min_le_left _ _
  have hhib : hi ≤ max a b := hhi ▸ min_le_right _ _
  have hend : ∀ x, (0 < lo ∧ x = lo) ∨ (hi < L ∧ x = hi) → x = a ∨ x = b := by
    rintro x (⟨h, rfl⟩ | ⟨h, rfl⟩)
    · have : x = min a b := by
        rcases max_choice 0 (min a b) with h' | h'
        · rw [h'] at hlo; linarith
        · rw [h'] at hlo; exact hlo
      rcases min_choice a b with h' | h'
      · left; rw [this, h']
      · right; rw [this, h']
    · have : x = max a b := by
        rcases min_choice L (max a b) with h' | h'
        · rw [h'] at hhi; linarith
        · rw [h'] at hhi; exact hhi
      rcases max_choice a b with h' | h'
      · left; rw [this, h']
      · right; rw [this, h']
  refine ⟨_, l, hg, hd, ?_, ?_, ?_, ?_⟩
  · intro r hr hnt
    obtain ⟨x, rfl⟩ := onSeg_coord hr
    rw [onSeg_P hn] at hr hnt
    rw [min_eq_left hL.le, max_eq_right hL.le] at hr
    by_cases hx : min a b ≤ x
    · have hx2 : max a b < x := by
        by_contra h
        push Not at h
        exact hnt ⟨hx, h⟩
      have hhx : hi ≤ x := hhib.trans hx2.le
      have hhiL' : hi < L := lt_of_lt_of_le (hhib.trans_lt hx2) hr.2
      refine ⟨⟨P o n hi, P o n L⟩, (hmem _).mpr (.inr ⟨hhiL', rfl⟩), ?_⟩
      dsimp only
      rw [onSeg_P hn, min_eq_left hhiL'.le, max_eq_right hhiL'.le]
      exact ⟨hhx, hr.2⟩
    · push Not at hx
      have hlo1 : lo = min a b := by rw [hlo]; exact max_eq_right (hr.1.trans hx.le)
      have hlopos : 0 < lo := by rw [hlo1]; exact hr.1.trans_lt hx
      refine ⟨⟨P o n 0, P o n lo⟩, (hmem _).mpr (.inl ⟨hlopos, rfl⟩), ?_⟩
      dsimp only
      rw [onSeg_P hn, min_eq_left hlopos.le, max_eq_right hlopos.le]
      exact ⟨hr.1, by rw [hlo1]; exact hx.le⟩
  · intro e he r hr
    rcases (hmem e).mp he with ⟨h1, rfl⟩ | ⟨h1, rfl⟩
    · obtain ⟨x, rfl⟩ := onSeg_coord hr
      dsimp only at hr
      rw [onSeg_P hn, min_eq_left h1.le, max_eq_right h1.le] at hr
      rw [onSeg_P hn, min_eq_left hL.le, max_eq_right hL.le]
      exact ⟨hr.1, by linarith [hr.2]⟩
    · obtain ⟨x, rfl⟩ := onSeg_coord hr
      dsimp only at hr
      rw [onSeg_P hn, min_eq_left h1.le, max_eq_right h1.le] at hr
      rw [onSeg_P hn, min_eq_left hL.le, max_eq_right hL.le]
      exact ⟨by linarith [hr.1], hr.2⟩
  · intro e he r hr hrt
    rcases (hmem e).mp he with ⟨h1, rfl⟩ | ⟨h1, rfl⟩
    · obtain ⟨x, rfl⟩ := onSeg_coord hr
      dsimp only at hr
      rw [onSeg_P hn, min_eq_left h1.le, max_eq_right h1.le] at hr
      rw [onSeg_P hn] at hrt
      have hlo1 : lo = min a b := by
        rcases max_choice 0 (min a b) with h' | h'
        · rw [h'] at hlo; linarith
        · rw [h'] at hlo; exact hlo
      have hx : x = lo := le_antisymm hr.2 (by rw [hlo1]; exact hrt.1)
      rcases hend x (.inl ⟨h1, hx⟩) with h | h
      · left; rw [h]
      · right; rw [h]
    · obtain ⟨x, rfl⟩ := onSeg_coord hr
      dsimp only at hr
      rw [onSeg_P hn, min_eq_left h1.le, max_eq_right h1.le] at hr
      rw [onSeg_P hn] at hrt
      have hhi1 : hi = max a b := by
        rcases min_choice L (max a b) with h' | h'
        · rw [h'] at hhi; linarith
        · rw [h'] at hhi; exact hhi
      have hx : x = hi := le_antisymm (by rw [hhi1]; exact hrt.2) hr.1
      rcases hend x (.inr ⟨h1, hx⟩) with h | h
      · left; rw [h]
      · right; rw [h]
  · rw [hsum, length_P hn, length_P hn, hcd, sub_zero, abs_of_pos hL]; ring

/-- C159: nothing is deleted when the segments (of one line, ends equal or apart) do not overlap. -/
theorem C159_delete_none (s t : Seg3) (hs : s.start ≠ s.stop) (ht : t.start ≠ t.stop) (h0 : 0 ≤ tol) (hl : SameLine s t)
    (hc : ClearEnds tol s t) (hno : ¬ Overlap s t) : deleteShared s t tol = .ok [s] := by
  obtain ⟨l, hg, -, h2⟩ := C159_shared_partial s t hs ht h0 hl hc
  rw [h2 hno] at hg
  unfold deleteShared
  rw [hg]
  rfl

/-! ## Below the tolerance -/

/-- C159: segments that overlap by less than the tolerance have no shared section: [0, 1] and [1 - 1e-7, 2] of the x axis. -/
theorem C159_shared_counterexample : ¬ C159_shared_full_statement := by
  intro hfull
  obtain ⟨o, ho⟩ : ∃ o : V3 ℝ, o = ⟨0, 0, 0⟩ := ⟨_, rfl⟩
  obtain ⟨n, hnd⟩ : ∃ n : V3 ℝ, n = ⟨1, 0, 0⟩ := ⟨_, rfl⟩
  have hn : V3.norm n = 1 := by rw [hnd]; norm_num [V3.norm]
  obtain ⟨a, ha⟩ : ∃ a : ℝ, a = 1 - 1 / 10 ^ 7 := ⟨_, rfl⟩
  have ha1 : a < 1 := by rw [ha]; norm_num
  have ha0 : 0 < a := by rw [ha]; norm_num
  have ha2 : a < 2 := by linarith
  obtain ⟨l, hg, hov, -⟩ := hfull ⟨P o n 0, P o n 1⟩ ⟨P o n a, P o n 2⟩ (1 / 10 ^ 6) (by dsimp only; rw [Ne, P_inj hn]; norm_num)
    (by dsimp only; rw [Ne, P_inj hn]; exact ha2.ne) (by norm_num)
  have ht : (0 : ℝ) ≤ 1 / 10 ^ 6 := by norm_num
  obtain ⟨x, hx, -⟩ := hov ((overlap_P hn one_pos).mpr (by
    rw [min_eq_left ha2.le, max_eq_right ha2.le, max_eq_right ha0.le]; norm_num [ha1]))
  rw [hx] at hg
  have sa : Sharp (1 / 10 ^ 6) 0 1 a := fun _ => ⟨by norm_num [ha0.le], by norm_num [ha1.le]⟩
  have sb : Sharp (1 / 10 ^ 6) 0 1 2 := by
    rintro ⟨-, h⟩; norm_num at h
  have s0 : Sharp (1 / 10 ^ 6) a 2 0 := by
    rintro ⟨h, -⟩; rw [min_eq_left ha2.le, ha] at h; norm_num at h
  have sL : Sharp (1 / 10 ^ 6) a 2 1 := fun _ => ⟨by rw [min_eq_left ha2.le]; exact ha1.le, by rw [max_eq_right ha2.le]; norm_num⟩
  have mb : ¬ Mem 0 1 2 := by unfold Mem; norm_num
  have ma : Mem 0 1 a := sa ⟨by norm_num; linarith, by norm_num; linarith⟩
  have m0 : ¬ Mem a 2 0 := by
    unfold Mem; rw [min_eq_left ha2.le]; rintro ⟨h, -⟩; linarith
  classical
  have hgen : getShared ⟨P o n 0, P o n 1⟩ ⟨P o n a, P o n 2⟩ (1 / 10 ^ 6) = .ok [] := by
    unfold getShared
    dsimp only
    rw [colinear_P hn (by norm_num) ha2.ne, if_neg (by simp)]
    simp only [anyBelong]
    rw [belongs_sharp hn ht (by norm_num) sa, decide_eq_true ma]
    simp only [Except.bind, if_true]
    unfold genericShared
    rw [half_P hn one_pos, mid_P]
    dsimp only
    rw [all_sharp hn ht (by norm_num) sa sb, all_sharp hn ht ha2.ne s0 sL, belongs_sharp hn ht (by norm_num) sa, decide_eq_true ma,
      decide_eq_false (by tauto), decide_eq_false (by tauto)]
    simp only [Except.bind, if_true, Bool.false_eq_true, if_false]
    have hsplit : Seg3.split ⟨P o n 0, P o n 1⟩ (P o n a) (1 / 10 ^ 6) = .ok (some ⟨P o n 0, P o n 1⟩, none) := by
      unfold Seg3.split
      dsimp only
      rw [dist_P hn, dist_P hn, if_neg, if_pos]
      · rw [ha]; norm_num
      · rw [ha]; norm_num
    rw [hsplit]
    simp only [fromSplit, mid_P]
    rw [all_sharp hn ht ha2.ne s0 sL, decide_eq_false (by tauto)]
    simp [Except.bind]
  rw [hgen] at hg
  simp at hg

-- the hypotheses of C159 are met by [0, 3] and [2, 1] of the x axis
example : SameLine ⟨⟨0, 0, 0⟩, ⟨3, 0, 0⟩⟩ ⟨⟨2, 0, 0⟩, ⟨1, 0, 0⟩⟩ ∧ ClearEnds (max (1 / 10 ^ 6) (1 / 10 ^ 6)) ⟨⟨0, 0, 0⟩, ⟨3, 0, 0⟩⟩ ⟨⟨2, 0, 0⟩, ⟨1, 0, 0⟩⟩ ∧
    OnSeg3 (⟨0, 0, 0⟩ : V3 ℝ) ⟨3, 0, 0⟩ ⟨1, 0, 0⟩ ∧ OnSeg3 (⟨2, 0, 0⟩ : V3 ℝ) ⟨1, 0, 0⟩ ⟨2, 0, 0⟩ ∧
    2 * max (1 / 10 ^ 6) (1 / 10 ^ 6) < V3.pointDistance ⟨1, 0, 0⟩ ⟨2, 0, 0⟩ := by
  refine ⟨⟨⟨2 / 3, by norm_num, by norm_num, by norm_num⟩, 1 / 3, by norm_num, by norm_num, by norm_num⟩, ?_,
    ⟨1 / 3, by norm_num, by norm_num, by norm_num, by norm_num, by norm_num⟩, ⟨0, by norm_num, by norm_num, by norm_num, by norm_num, by norm_num⟩, ?_⟩
  · have hd : ∀ x y : ℝ, V3.pointDistance (⟨x, 0, 0⟩ : V3 ℝ) ⟨y, 0, 0⟩ = |x - y| := by
      intro x y
      unfold V3.pointDistance V3.norm
      simp [Real.sqrt_mul_self_eq_abs]
    rintro e (rfl | rfl) f (rfl | rfl) <;> right <;> dsimp only <;> rw [hd] <;> norm_num
  · norm_num [V3.pointDistance, V3.norm]

end Volmdlr.Shared
