import Verif.Search.DiscProps
import Verif.Surface.MoreProps

/-!
# C189: the distance of a point to an edge, by refinement

**C189** `Edge.point_distance` ends, answers a distance reached on a chord between two neighbouring points of the last refinement and not
larger than that of any other chord of it.  It is not always the distance to the edge.
-/

namespace Volmdlr.Search

open Volmdlr.Angle

lemma chordScan_spec (point : V3 ℝ) (l : List (V3 ℝ × V3 ℝ)) (st : V3 ℝ × V3 ℝ × ℝ) :
    let r := chordScan point st l
    r.2.2 ≤ st.2.2 ∧
    (∀ c ∈ l, isClose c.1 c.2 = false → ∀ x, OnSeg3 c.1 c.2 x → r.2.2 ≤ V3.pointDistance x point) ∧
    (r = st ∨ r.2.2 < st.2.2 ∧ (r.1, r.2.1) ∈ l ∧ isClose r.1 r.2.1 = false ∧
      ∃ x, OnSeg3 r.1 r.2.1 x ∧ r.2.2 = V3.pointDistance x point) := by
  induction l generalizing st with
  | nil => exact ⟨le_rfl, by simp, Or.inl rfl⟩
  | cons c l ih =>
    dsimp only
    have hstep : chordScan point st (c :: l) = chordScan point (chordScan point st [c]) l := rfl
    have key : let s' := chordScan point st [c]
        s'.2.2 ≤ st.2.2 ∧ (isClose c.1 c.2 = false → ∀ x, OnSeg3 c.1 c.2 x → s'.2.2 ≤ V3.pointDistance x point) ∧
        (s' = st ∨ s'.2.2 < st.2.2 ∧ (s'.1, s'.2.1) = c ∧ isClose c.1 c.2 = false ∧
          ∃ x, OnSeg3 c.1 c.2 x ∧ s'.2.2 = V3.pointDistance x point) := by
      dsimp only
      unfold chordScan
      simp only [List.foldl_cons, List.foldl_nil]
      by_cases hc : isClose c.1 c.2 = true
      · rw [if_pos hc]
        exact ⟨le_rfl, (fun h => by rw [hc] at h; cases h), Or.inl rfl⟩
      · rw [if_neg hc]
        have hne : c.1 ≠ c.2 := by
          intro he
          refine hc ((isClose_iff _ _).mpr ?_)
          rw [he, V3.pointDistance, (V3.norm_eq_zero_iff _).mpr (by ext <;> simp)]; norm_num
        obtain ⟨d, q, h1, h2, h3, h4⟩ := (C07_linesegment3d_distance c.1 c.2 point).2 hne
        rw [h1]
        dsimp only
        split_ifs with hd
        · exact ⟨hd.le, fun _ => h4, Or.inr ⟨hd, rfl, by simpa using hc, q, h2, h3⟩⟩
        · exact ⟨le_rfl, fun _ x hx => (not_lt.mp hd).trans (h4 x hx), Or.inl rfl⟩
    rw [hstep]
    obtain ⟨k1, k2, k3⟩ := key
    obtain ⟨i1, i2, i3⟩ := ih (chordScan point st [c])
    refine ⟨i1.trans k1, ?_, ?_⟩
    · intro c' hc' hn x hx
      rcases List.mem_cons.mp hc' with rfl | hc'
      · exact i1.trans (k2 hn x hx)
      · exact i2 c' hc' hn x hx
    · rcases i3 with i3 | ⟨j1, j2, j3, j4⟩
      · rcases k3 with k3 | ⟨k3, k4, k5, k6⟩
        · exact Or.inl (i3.trans k3)
        · refine Or.inr ?_
          rw [i3]
          have e1 := congrArg Prod.fst k4
          have e2 := congrArg Prod.snd k4
          dsimp only at e1 e2
          rw [e1, e2]
          exact ⟨k3, List.mem_cons_self, k5, k6⟩
      · exact Or.inr ⟨j1.trans_le k1, List.mem_cons_of_mem _ j2, j3, j4⟩

/-- What is answered (specification): `d` is the smallest distance from `point` to the first of the points `q :: qs` and to the chords between
neighbours. -/
def Best (point : V3 ℝ) (points : List (V3 ℝ)) (d : ℝ) : Prop :=
  (∀ c ∈ chords points, isClose c.1 c.2 = false → ∀ x, OnSeg3 c.1 c.2 x → d ≤ V3.pointDistance x point) ∧
  (∀ q ∈ points.head?, d ≤ V3.pointDistance point q) ∧
  ((∃ q ∈ points.head?, d = V3.pointDistance point q) ∨ ∃ c ∈ chords points, ∃ x, OnSeg3 c.1 c.2 x ∧ d = V3.pointDistance x point)

lemma best_of_scan (point p1 p2 q : V3 ℝ) (qs : List (V3 ℝ)) :
    Best point (q :: qs) (chordScan point (p1, p2, V3.pointDistance point q) (chords (q :: qs))).2.2 := by
  obtain ⟨h1, h2, h3⟩ := chordScan_spec point (chords (q :: qs)) (p1, p2, V3.pointDistance point q)
  refine ⟨h2, ?_, ?_⟩
  · intro q' hq'
    rw [List.head?_cons, Option.mem_some_iff] at hq'
    subst hq'; exact h1
  · rcases h3 with h3 | ⟨-, h4, -, x, hx, hd⟩
    · exact Or.inl ⟨q, by simp, by rw [h3]⟩
    · exact Or.inr ⟨_, h4, x, hx, hd⟩

lemma search_best (disc : V3 ℝ → V3 ℝ → List (V3 ℝ)) (point : V3 ℝ) (fuel : ℕ) : ∀ (p1 p2 : V3 ℝ) (best : Option ℝ),
    (∀ b ∈ best, ∃ a c, Best point (disc a c) b) → ∀ d, searchLoop disc point fuel p1 p2 best = some (some d) →
    ∃ a c, Best point (disc a c) d := by
  induction fuel with
  | zero => intro p1 p2 best _ d h; cases h
  | succ n ih =>
    intro p1 p2 best hb d h
    rw [searchLoop] at h
    rcases hd : disc p1 p2 with _ | ⟨q, qs⟩
    · rw [hd] at h
      cases h
      exact hb d rfl
    · rw [hd] at h
      dsimp only at h
      have hbest := best_of_scan point p1 p2 q qs
      rw [← hd] at hbest
      split_ifs at h with hc
      · cases h
        rw [hd] at hbest
        exact ⟨p1, p2, by rw [hd]; exact hbest⟩
      · refine ih _ _ _ ?_ d h
        intro b hb'
        rw [Option.mem_some_iff] at hb'
        subst hb'
        refine ⟨p1, p2, ?_⟩
        rw [hd] at hbest ⊢
        exact hbest

/-- Every point of an edge is reached at its abscissa (specification; it excludes edges that cross themselves or close). -/
def Edge.Simple (e : Edge) : Prop := ∀ a, 0 ≤ a → a ≤ e.length → e.abscissa (e.pointAt a) = a

/-- The discretization between two points of an edge. -/
lemma disc_at {e : Edge} (hs : e.Simple) {a1 a2 : ℝ} (h0 : 0 ≤ a1) (h12 : a1 ≤ a2) (hl : a2 ≤ e.length) (num : ℕ) :
    localDiscretization e (e.pointAt a1) (e.pointAt a2) num = (abscissaDiscretization e a1 a2 num).map Prod.fst := by
  unfold localDiscretization
  rw [hs a1 h0 (h12.trans hl), hs a2 (h0.trans h12) hl]

lemma mem_chords {α : Type*} {l : List α} {c : α × α} (h : c ∈ chords l) : ∃ l1 l2, l = l1 ++ c.1 :: c.2 :: l2 := by
  induction l with
  | nil => cases h
  | cons a l ih =>
    cases l with
    | nil => simp [chords] at h
    | cons b l =>
      have : chords (a :: b :: l) = (a, b) :: chords (b :: l) := rfl
      rw [this] at h
      rcases List.mem_cons.mp h with rfl | h
      · exact ⟨[], l, rfl⟩
      · obtain ⟨l1, l2, e⟩ := ih h
        exact ⟨a :: l1, l2, by rw [e]; rfl⟩

/-- A turn keeps the two points, or moves to two sampled points not all of the way apart. -/
lemma turn_shrinks {e : Edge} (hm : e.Measured) (hs : e.Simple) {a1 a2 : ℝ} (h0 : 0 ≤ a1) (h12 : a1 ≤ a2) (hl : a2 ≤ e.length) {num : ℕ} (hn : 2 ≤ num)
    (point : V3 ℝ) :
    ∃ q qs, localDiscretization e (e.pointAt a1) (e.pointAt a2) num = q :: qs ∧
    let r := chordScan point (e.pointAt a1, e.pointAt a2, V3.pointDistance point q) (chords (q :: qs))
    (r.1 = e.pointAt a1 ∧ r.2.1 = e.pointAt a2) ∨
    (1 / 10 ^ 6 < a2 - a1 ∧ ∃ b1 b2, r.1 = e.pointAt b1 ∧ r.2.1 = e.pointAt b2 ∧ a1 ≤ b1 ∧ b1 ≤ b2 ∧ b2 ≤ a2 ∧
      b2 - b1 ≤ (1 - 1 / ((num - 1 : ℕ) : ℝ)) * (a2 - a1)) := by
  obtain ⟨kept, hk1, hk2, hk3, hk4, hk5⟩ := C188_discretization e a1 a2 num
  rw [disc_at hs h0 h12 hl, hk2, List.map_map]
  have hs0 : sample a1 a2 num 0 = a1 := by simp [sample]
  obtain ⟨j, hj, hj0, -⟩ := hk5 0 (by omega) (by rw [hs0]; linarith [h12.trans hl, (by norm_num : (0 : ℝ) ≤ 1 / 10 ^ 6)])
  cases kept with
  | nil => cases hj
  | cons k ks =>
    have hsorted : (k :: ks).Pairwise (· < ·) := List.pairwise_lt_range.sublist hk1
    have hlt : ∀ i ∈ k :: ks, i < num := fun i hi => List.mem_range.mp (hk1.subset hi)
    have hk0 : k = 0 := by
      rcases List.mem_cons.mp hj with rfl | hj
      · omega
      · have := (List.pairwise_cons.mp hsorted).1 j hj; omega
    obtain ⟨f, hf⟩ : ∃ f : ℕ → V3 ℝ, f = fun i : ℕ => e.pointAt (sample a1 a2 num i) := ⟨_, rfl⟩
    refine ⟨f k, ks.map f, by rw [hf]; rfl, ?_⟩
    dsimp only
    rw [show f k :: ks.map f = (k :: ks).map f from rfl]
    obtain ⟨-, -, h3⟩ := chordScan_spec point (chords ((k :: ks).map f)) (e.pointAt a1, e.pointAt a2, V3.pointDistance point (f k))
    rcases h3 with h3 | ⟨-, h4, h5, -⟩
    · rw [h3]; exact Or.inl ⟨rfl, rfl⟩
    · generalize chordScan point (e.pointAt a1, e.pointAt a2, V3.pointDistance point (f k)) (chords ((k :: ks).map f)) = r at h4 h5
      obtain ⟨l1, l2, hsplit⟩ := mem_chords h4
      dsimp only at hsplit
      obtain ⟨m1, m2, hm12, hm1, hm2⟩ := List.map_eq_append_iff.mp hsplit
      obtain ⟨i1, m3, hm3, hi1, hm4⟩ := List.map_eq_cons_iff.mp hm2
      obtain ⟨i2, m5, hm5, hi2, -⟩ := List.map_eq_cons_iff.mp hm4
      rw [hm3, hm5] at hm12
      rw [hm12] at hsorted hlt
      have hi12 : i1 < i2 := by
        have := (List.pairwise_append.mp hsorted).2.1
        exact (List.pairwise_cons.mp this).1 i2 (by simp)
      have hi2n : i2 < num := hlt i2 (by simp)
      have hden : (0 : ℝ) < ((num - 1 : ℕ) : ℝ) := Nat.cast_pos.mpr (by omega)
      set step := (a2 - a1) / ((num - 1 : ℕ) : ℝ) with hstep
      have hstep0 : 0 ≤ step := div_nonneg (by linarith) hden.le
      have hmul : ((num - 1 : ℕ) : ℝ) * step = a2 - a1 := by rw [hstep]; field_simp
      have c1 : (0 : ℝ) ≤ (i1 : ℝ) := Nat.cast_nonneg _
      have c2 : (i1 : ℝ) ≤ (i2 : ℝ) := by exact_mod_cast hi12.le
      have c3 : (i2 : ℝ) ≤ ((num - 1 : ℕ) : ℝ) := by exact_mod_cast (by omega : i2 ≤ num - 1)
      by_cases hends : i1 = 0 ∧ i2 = num - 1
      · left
        rw [← hi1, ← hi2, hf]
        dsimp only
        rw [hends.1, hends.2, hs0]
        refine ⟨rfl, ?_⟩
        unfold sample
        rw [← hstep, hmul]; congr 1; ring
      · right
        refine ⟨?_, sample a1 a2 num i1, sample a1 a2 num i2, by rw [← hi1, hf], by rw [← hi2, hf], ?_, ?_, ?_, ?_⟩
        · by_contra hsmall
          rw [not_lt] at hsmall
          have hclose := (isClose_iff r.1 r.2.1).not.mp (by simp [h5])
          refine hclose ?_
          rw [← hi1, ← hi2, hf]
          refine (hm _ _).trans ?_
          unfold sample
          rw [← hstep, abs_of_nonneg (by nlinarith)]
          nlinarith
        · unfold sample; rw [← hstep]; nlinarith
        · unfold sample; rw [← hstep]; nlinarith
        · unfold sample; rw [← hstep]; nlinarith
        · have c4 : (i2 : ℝ) - i1 ≤ ((num - 1 : ℕ) : ℝ) - 1 := by
            have : i2 + 1 ≤ (num - 1) + i1 := by omega
            have : ((i2 + 1 : ℕ) : ℝ) ≤ ((num - 1 + i1 : ℕ) : ℝ) := by exact_mod_cast this
            push_cast at this ⊢; linarith
          have e1 : (1 - 1 / ((num - 1 : ℕ) : ℝ)) * (a2 - a1) = (((num - 1 : ℕ) : ℝ) - 1) * step := by
            rw [hstep]; field_simp
          rw [e1]
          unfold sample; rw [← hstep]
          nlinarith

lemma search_ends {e : Edge} (hm : e.Measured) (hs : e.Simple) {num : ℕ} (hn : 2 ≤ num) (point : V3 ℝ) (M : ℕ) :
    ∀ (a1 a2 : ℝ) (best : Option ℝ), 0 ≤ a1 → a1 ≤ a2 → a2 ≤ e.length → (1 - 1 / ((num - 1 : ℕ) : ℝ)) ^ M * (a2 - a1) ≤ 1 / 10 ^ 6 →
    ∃ d, searchLoop (fun p q => localDiscretization e p q num) point (M + 2) (e.pointAt a1) (e.pointAt a2) best = some (some d) := by
  have hρ : 0 ≤ 1 - 1 / ((num - 1 : ℕ) : ℝ) := by
    have : (1 : ℝ) ≤ ((num - 1 : ℕ) : ℝ) := by exact_mod_cast (by omega : 1 ≤ num - 1)
    rw [sub_nonneg, div_le_one (by linarith)]; exact this
  induction M with
  | zero =>
    intro a1 a2 best h0 h12 hl hsmall
    obtain ⟨q, qs, hq, hr⟩ := turn_shrinks hm hs h0 h12 hl hn point
    rw [searchLoop]
    dsimp only
    rw [hq]
    dsimp only
    dsimp only at hr
    split_ifs with hc
    · exact ⟨_, rfl⟩
    · rcases hr with ⟨hr1, hr2⟩ | ⟨hbig, -⟩
      · rw [hr1, hr2, searchLoop]
        dsimp only
        rw [hq]
        dsimp only
        rw [if_pos ⟨_, rfl, Surface.mathIsClose_self _ _ (by norm_num)⟩]
        exact ⟨_, rfl⟩
      · rw [pow_zero, one_mul] at hsmall; linarith
  | succ M ih =>
    intro a1 a2 best h0 h12 hl hsmall
    obtain ⟨q, qs, hq, hr⟩ := turn_shrinks hm hs h0 h12 hl hn point
    rw [searchLoop]
    dsimp only
    rw [hq]
    dsimp only
    dsimp only at hr
    split_ifs with hc
    · exact ⟨_, rfl⟩
    · rcases hr with ⟨hr1, hr2⟩ | ⟨-, b1, b2, hr1, hr2, hb1, hb12, hb2, hsh⟩
      · rw [hr1, hr2, show M + 1 + 1 = (M + 1) + 1 from rfl, searchLoop]
        dsimp only
        rw [hq]
        dsimp only
        rw [if_pos ⟨_, rfl, Surface.mathIsClose_self _ _ (by norm_num)⟩]
        exact ⟨_, rfl⟩
      · rw [hr1, hr2]
        refine ih b1 b2 _ (h0.trans hb1) hb12 (hb2.trans hl) ?_
        rw [pow_succ, mul_assoc] at hsmall
        exact (mul_le_mul_of_nonneg_left hsh (pow_nonneg hρ M)).trans hsmall

/-- **C189** the search ends: on every edge measured by its length that does not cross itself or close, from every point, `point_distance` returns a
number. -/
theorem C189_ends (e : Edge) (hm : e.Measured) (hs : e.Simple) (hl : 0 < e.length) (point : V3 ℝ) :
    ∃ fuel d, pointDistanceToEdge e point (e.pointAt 0) (e.pointAt e.length) fuel = .ok (some (some d)) := by
  have hne : e.pointAt 0 ≠ e.pointAt e.length := by
    intro h
    have h1 := hs 0 le_rfl hl.le
    have h2 := hs e.length hl.le le_rfl
    rw [h, h2] at h1; linarith
  have hmain : ∀ num, 2 ≤ num → ∃ fuel d, searchLoop (fun p q => localDiscretization e p q num) point fuel (e.pointAt 0) (e.pointAt e.length) none = some (some d) := by
    intro num hn
    have hden : (1 : ℝ) ≤ ((num - 1 : ℕ) : ℝ) := by exact_mod_cast (by omega : 1 ≤ num - 1)
    obtain ⟨M, hM⟩ := exists_pow_lt_of_lt_one (show 0 < 1 / 10 ^ 6 / e.length by positivity)
      (show 1 - 1 / ((num - 1 : ℕ) : ℝ) < 1 by have : 0 < 1 / ((num - 1 : ℕ) : ℝ) := by positivity
                                               linarith)
    obtain ⟨d, hd⟩ := search_ends hm hs hn point M 0 e.length none le_rfl hl.le le_rfl (by
      rw [sub_zero]; rw [lt_div_iff₀ hl] at hM; exact hM.le)
    exact ⟨_, d, hd⟩
  unfold pointDistanceToEdge numberPoints
  rw [if_pos hne]
  split_ifs with h1 h2 h3 h3
  · exact ⟨0, _, rfl⟩
  · obtain ⟨fuel, d, h⟩ := hmain 10 (by norm_num); exact ⟨fuel, d, by rw [← h]⟩
  · obtain ⟨fuel, d, h⟩ := hmain 2 (by norm_num); exact ⟨fuel, d, by rw [← h]⟩
  · obtain ⟨fuel, d, h⟩ := hmain 10 (by norm_num); exact ⟨fuel, d, by rw [← h]⟩
  · obtain ⟨fuel, d, h⟩ := hmain 2 (by norm_num); exact ⟨fuel, d, by rw [← h]⟩

example : exampleEdge.Measured ∧ exampleEdge.Simple ∧ 0 < exampleEdge.length :=
  ⟨exampleEdge_measured, fun a _ _ => rfl, by simp [exampleEdge]⟩

/-- **C189** what is answered (any edge): the distance to the start when the ends are close and the edge is not periodic; otherwise there is a
discretization of a part of the edge, all of it points of the edge no further than its end, such that the number is the smallest distance from the point to its first point and
its chords. -/
theorem C189_answer (e : Edge) (point start stop : V3 ℝ) (fuel : ℕ) (d : ℝ)
    (h : pointDistanceToEdge e point start stop fuel = .ok (some (some d))) :
    (V3.pointDistance stop start ≤ 1 / 10 ^ 6 ∧ e.periodic = false ∧ d = V3.pointDistance point start) ∨
    ∃ points, Best point points d ∧ ∀ q ∈ points, ∃ a, a ≤ e.length + 1 / 10 ^ 6 ∧ q = e.pointAt a := by
  have hpts : ∀ (a1 a2 : V3 ℝ) (num : ℕ), ∀ q ∈ localDiscretization e a1 a2 num, ∃ a, a ≤ e.length + 1 / 10 ^ 6 ∧ q = e.pointAt a := by
    intro a1 a2 num q hq
    unfold localDiscretization at hq
    obtain ⟨kept, -, hk, hk3, -, -⟩ := C188_discretization e (e.abscissa a1) (e.abscissa a2) num
    rw [hk, List.map_map] at hq
    obtain ⟨i, hi, rfl⟩ := List.mem_map.mp hq
    exact ⟨_, hk3 i hi, rfl⟩
  have hloop : ∀ num, searchLoop (fun p q => localDiscretization e p q num) point fuel start stop none = some (some d) →
      ∃ points, Best point points d ∧ ∀ q ∈ points, ∃ a, a ≤ e.length + 1 / 10 ^ 6 ∧ q = e.pointAt a := by
    intro num hh
    obtain ⟨a, c, hb⟩ := search_best _ point fuel start stop none (by simp) d hh
    exact ⟨_, hb, hpts a c num⟩
  unfold pointDistanceToEdge at h
  rcases hnp : numberPoints e point start stop with err | (d' | num)
  · rw [hnp] at h; cases h
  · rw [hnp] at h
    cases h
    left
    unfold numberPoints at hnp
    split_ifs at hnp with h1 h2 h3 <;> cases hnp
    exact ⟨(isClose_iff _ _).mp h2, h3, rfl⟩
  · rw [hnp] at h
    dsimp only at h
    exact Or.inr (hloop num (Except.ok.inj h))

/-- **C189** the exception: `point_distance` of an edge with equal ends that is not periodic. -/
theorem C189_unbound (e : Edge) (point start : V3 ℝ) (fuel : ℕ) (h : e.periodic = false) :
    pointDistanceToEdge e point start start fuel = .error .unboundLocal := by
  unfold pointDistanceToEdge numberPoints
  rw [if_neg (by simp), if_neg (by simp [h])]

/-- C189 as expected by a user: no point of the edge is nearer than the answer (by more than the tolerance `1e-6`). -/
def C189_full_statement : Prop := ∀ (e : Edge) (point : V3 ℝ) (fuel : ℕ) (d : ℝ), e.Measured → e.Simple → 0 < e.length →
  pointDistanceToEdge e point (e.pointAt 0) (e.pointAt e.length) fuel = .ok (some (some d)) →
  ∀ a, 0 ≤ a → a ≤ e.length → d ≤ V3.pointDistance point (e.pointAt a) + 1 / 10 ^ 6

/-- A saw of nine teeth, whose feet are the ten sampled points. -/
noncomputable def saw : Edge := ⟨180, fun s => ⟨3 / 5 * s, 4 / 5 * (20 * |s / 20 - round (s / 20)|), 0⟩, fun p => 5 / 3 * p.x, false⟩

lemma saw_measured : saw.Measured := by
  intro s t
  have key : ∀ s t : ℝ, |s / 20 - round (s / 20)| - |t / 20 - round (t / 20)| ≤ |s / 20 - t / 20| := by
    intro s t
    have h1 := round_le (s / 20) (round (t / 20))
    have h2 := abs_add_le (s / 20 - t / 20) (t / 20 - round (t / 20))
    rw [show s / 20 - t / 20 + (t / 20 - round (t / 20)) = s / 20 - (round (t / 20) : ℝ) by ring] at h2
    linarith
  have h1 := key s t
  have h2 := key t s
  rw [abs_sub_comm (t / 20) (s / 20)] at h2
  have h3 : |s / 20 - t / 20| = |s - t| / 20 := by rw [← sub_div, abs_div]; norm_num
  rw [h3] at h1 h2
  unfold V3.pointDistance V3.norm saw
  rw [Real.sqrt_le_left (abs_nonneg _)]
  simp only [V3.sub_x, V3.sub_y, V3.sub_z]
  generalize |s / 20 - round (s / 20)| = x at h1 h2 ⊢
  generalize |t / 20 - round (t / 20)| = y at h1 h2 ⊢
  have h4 : (x - y) ^ 2 ≤ (|s - t| / 20) ^ 2 := by
    rw [← sq_abs (x - y)]
    exact pow_le_pow_left₀ (abs_nonneg _) (abs_le.mpr ⟨by linarith, by linarith⟩) 2
  rw [div_pow, sq_abs] at h4
  rw [sq_abs]
  nlinarith

lemma saw_foot (i : ℕ) : saw.pointAt (sample 0 180 10 i) = ⟨12 * i, 0, 0⟩ := by
  have : sample 0 180 10 i = 20 * i := by unfold sample; norm_num; ring
  rw [this]
  unfold saw
  dsimp only
  rw [show (20 * (i : ℝ)) / 20 = ((i : ℤ) : ℝ) by push_cast; ring, round_intCast]
  ext <;> simp
  ring

/-- **C189** a point can be nearer than the answer: the search looks at the chords only. -/
theorem C189_counterexample : ¬ C189_full_statement := by
  intro hfull
  have hsimple : saw.Simple := fun a _ _ => by unfold saw; dsimp only; ring
  have h0 : saw.pointAt 0 = ⟨0, 0, 0⟩ := by simpa [sample] using saw_foot 0
  have hlen : saw.length = 180 := rfl
  have hend : saw.pointAt 180 = ⟨108, 0, 0⟩ := by
    have := saw_foot 9
    rw [show sample 0 180 10 9 = 180 by unfold sample; norm_num] at this
    rw [this]; ext <;> norm_num
  -- the discretization lies on the first axis and starts at the origin
  obtain ⟨kept, hk1, hk2, -, -, hk5⟩ := C188_discretization saw 0 180 10
  obtain ⟨q, qs, hq, -⟩ := turn_shrinks saw_measured hsimple le_rfl (by norm_num : (0 : ℝ) ≤ 180) (by rw [hlen]) (by norm_num : 2 ≤ 10) ⟨0, 8, 0⟩
  have hq' := hq
  rw [disc_at hsimple le_rfl (by norm_num) (by rw [hlen]), hk2, List.map_map] at hq'
  have hax : ∀ x ∈ q :: qs, x.y = 0 ∧ x.z = 0 := by
    intro x hx
    rw [← hq'] at hx
    obtain ⟨i, -, rfl⟩ := List.mem_map.mp hx
    rw [Function.comp, saw_foot]; simp
  have hq0 : q = ⟨0, 0, 0⟩ := by
    obtain ⟨j, hj, hj0, -⟩ := hk5 0 (by norm_num) (by rw [hlen]; unfold sample; norm_num)
    cases kept with
    | nil => cases hj
    | cons k ks =>
      have hsorted : (k :: ks).Pairwise (· < ·) := List.pairwise_lt_range.sublist hk1
      have hk0 : k = 0 := by
        rcases List.mem_cons.mp hj with rfl | hj
        · omega
        · have := (List.pairwise_cons.mp hsorted).1 j hj; omega
      have := (List.cons.inj hq').1
      rw [← this, Function.comp, saw_foot, hk0]; ext <;> simp
  have h8 : V3.pointDistance ⟨0, 8, 0⟩ q = 8 := by
    rw [hq0]
    unfold V3.pointDistance V3.norm
    rw [show Real.sqrt _ = Real.sqrt (8 ^ 2) by congr 1; norm_num, Real.sqrt_sq (by norm_num)]
  have hscan : ∀ p1 p2, chordScan ⟨0, 8, 0⟩ (p1, p2, V3.pointDistance ⟨0, 8, 0⟩ q) (chords (q :: qs)) = (p1, p2, 8) := by
    intro p1 p2
    obtain ⟨-, -, h3⟩ := chordScan_spec ⟨0, 8, 0⟩ (chords (q :: qs)) (p1, p2, V3.pointDistance ⟨0, 8, 0⟩ q)
    rcases h3 with h3 | ⟨h4, h5, -, x, hx, hd⟩
    · rw [h3, h8]
    · exfalso
      have h4' := h4.trans_eq h8
      obtain ⟨l1, l2, hsplit⟩ := mem_chords h5
      obtain ⟨r, hr⟩ : ∃ r, r = chordScan ⟨0, 8, 0⟩ (p1, p2, V3.pointDistance ⟨0, 8, 0⟩ q) (chords (q :: qs)) := ⟨_, rfl⟩
      rw [← hr] at h5 hx hsplit
      have m1 := hax r.1 (by rw [hsplit]; simp)
      have m2 := hax r.2.1 (by rw [hsplit]; simp)
      obtain ⟨t, -, -, -, hy, -⟩ := hx
      have hxy : x.y = 0 := by rw [hy, m1.1, m2.1]; ring
      have : 8 ≤ V3.pointDistance x ⟨0, 8, 0⟩ := by
        unfold V3.pointDistance V3.norm
        refine Real.le_sqrt_of_sq_le ?_
        simp only [V3.sub_x, V3.sub_y, V3.sub_z, hxy]
        nlinarith [mul_self_nonneg (x.x - 0), mul_self_nonneg (x.z - 0)]
      rw [← hd] at this
      exact absurd h4' (not_lt.mpr this)
  have hres : pointDistanceToEdge saw ⟨0, 8, 0⟩ (saw.pointAt 0) (saw.pointAt saw.length) 2 = .ok (some (some 8)) := by
    unfold pointDistanceToEdge numberPoints
    rw [hlen, if_pos (by rw [h0, hend]; intro h; have := congrArg V3.x h; norm_num at this)]
    have hnc : ¬ isClose (saw.pointAt 0) (saw.pointAt 180) = true := by
      rw [isClose_iff, h0, hend, not_le]
      unfold V3.pointDistance V3.norm
      refine Real.lt_sqrt_of_sq_lt ?_
      norm_num
    rw [if_neg hnc, hsimple 0 le_rfl (by rw [hlen]; norm_num), hsimple 180 (by norm_num) (by rw [hlen]), if_pos (by norm_num)]
    dsimp only
    rw [searchLoop]
    dsimp only
    rw [hq]
    dsimp only
    rw [hscan, if_neg (by simp), searchLoop]
    dsimp only
    rw [hq]
    dsimp only
    rw [hscan, if_pos ⟨_, rfl, Surface.mathIsClose_self _ _ (by norm_num)⟩]
  have hc := hfull saw ⟨0, 8, 0⟩ 2 8 saw_measured hsimple (by rw [hlen]; norm_num) hres (32 / 5) (by norm_num) (by rw [hlen]; norm_num)
  have hp : saw.pointAt (32 / 5) = ⟨96 / 25, 128 / 25, 0⟩ := by
    have hr : round ((32 / 5 : ℝ) / 20) = 0 := by
      rw [round_eq, Int.floor_eq_zero_iff]; norm_num
    unfold saw
    dsimp only
    rw [hr]
    ext <;> simp <;> norm_num
  rw [hp] at hc
  have hd : V3.pointDistance ⟨0, 8, 0⟩ ⟨96 / 25, 128 / 25, 0⟩ = 24 / 5 := by
    unfold V3.pointDistance V3.norm
    rw [show Real.sqrt _ = Real.sqrt ((24 / 5) ^ 2) by congr 1; norm_num, Real.sqrt_sq (by norm_num)]
  rw [hd] at hc
  norm_num at hc

end Volmdlr.Search
