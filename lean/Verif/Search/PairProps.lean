import Verif.Search.PairModel
import Verif.Search.SegProps
import Verif.Search.PointProps

/-!
# C191: the distance of two edges, by refinement

**C191** `Edge.minimum_distance` by discretization: the answer is the distance of the two points given with it, which are points of
chords of the two edges, and no pair of chords of the last turn is found nearer.
-/

namespace Volmdlr.Search

open Volmdlr.Angle

/-- What the search over the chords of one turn gives (specification): `(d, x, y)` is one of the measured pairs (the first points, given as second edge, first edge;
or two chords) and none is measured smaller. -/
def BestPair (l1 l2 : List (V3 ℝ)) (r : ℝ × V3 ℝ × V3 ℝ) : Prop :=
  (∀ c1 ∈ chords l1, ∀ c2 ∈ chords l2, ∃ d x y, distanceLinesegment c1.1 c1.2 c2.1 c2.2 = some (d, x, y) ∧ r.1 ≤ d) ∧
  (∀ a ∈ l1.head?, ∀ b ∈ l2.head?, r.1 ≤ V3.pointDistance b a) ∧
  ((∃ a ∈ l1.head?, ∃ b ∈ l2.head?, r = (V3.pointDistance b a, b, a)) ∨
    ∃ c1 ∈ chords l1, ∃ c2 ∈ chords l2, distanceLinesegment c1.1 c1.2 c2.1 c2.2 = some r)

lemma foldlM_pair (l : List ((V3 ℝ × V3 ℝ) × (V3 ℝ × V3 ℝ))) : ∀ (st st' : PairState),
    l.foldlM (fun (st : PairState) (c : (V3 ℝ × V3 ℝ) × (V3 ℝ × V3 ℝ)) =>
      match distanceLinesegment c.1.1 c.1.2 c.2.1 c.2.2 with
      | none => none
      | some (dist, x, y) => if dist < st.distance then some (⟨c.1.1, c.1.2, c.2.1, c.2.2, dist, (x, y)⟩ : PairState) else some st) st = some st' →
    st'.distance ≤ st.distance ∧
    (∀ c ∈ l, ∃ d x y, distanceLinesegment c.1.1 c.1.2 c.2.1 c.2.2 = some (d, x, y) ∧ st'.distance ≤ d) ∧
    ((st'.distance, st'.points) = (st.distance, st.points) ∨ ∃ c ∈ l, distanceLinesegment c.1.1 c.1.2 c.2.1 c.2.2 = some (st'.distance, st'.points)) := by
  induction l with
  | nil =>
    intro st st' h
    cases h
    exact ⟨le_rfl, by simp, Or.inl rfl⟩
  | cons c l ih =>
    intro st st' h
    rw [List.foldlM_cons] at h
    rcases hd : distanceLinesegment c.1.1 c.1.2 c.2.1 c.2.2 with _ | ⟨dist, x, y⟩
    · rw [hd] at h; cases h
    · rw [hd] at h
      dsimp only at h
      split_ifs at h with hlt
      · obtain ⟨h1, h2, h3⟩ := ih _ _ h
        dsimp only at h1 h3
        refine ⟨h1.trans hlt.le, ?_, Or.inr ?_⟩
        · intro c' hc'
          rcases List.mem_cons.mp hc' with rfl | hc'
          · exact ⟨_, _, _, hd, h1⟩
          · exact h2 c' hc'
        · rcases h3 with h3 | ⟨c', hc', h3⟩
          · exact ⟨c, List.mem_cons_self, by rw [hd, h3]⟩
          · exact ⟨c', List.mem_cons_of_mem _ hc', h3⟩
      · obtain ⟨h1, h2, h3⟩ := ih _ _ h
        refine ⟨h1, ?_, ?_⟩
        · intro c' hc'
          rcases List.mem_cons.mp hc' with rfl | hc'
          · exact ⟨_, _, _, hd, h1.trans (not_lt.mp hlt)⟩
          · exact h2 c' hc'
        · rcases h3 with h3 | ⟨c', hc', h3⟩
          · exact Or.inl h3
          · exact Or.inr ⟨c', List.mem_cons_of_mem _ hc', h3⟩

lemma bestPair_of_scan {p1 p2 q1 q2 a b : V3 ℝ} {as bs : List (V3 ℝ)} {st : PairState}
    (h : pairScan ⟨p1, p2, q1, q2, V3.pointDistance b a, (b, a)⟩ (chords (a :: as)) (chords (b :: bs)) = some st) :
    BestPair (a :: as) (b :: bs) (st.distance, st.points.1, st.points.2) := by
  obtain ⟨h1, h2, h3⟩ := foldlM_pair _ _ _ h
  refine ⟨fun c1 hc1 c2 hc2 => h2 (c1, c2) (List.mem_product.mpr ⟨hc1, hc2⟩), ?_, ?_⟩
  · intro a' ha' b' hb'
    rw [List.head?_cons, Option.mem_some_iff] at ha' hb'
    subst ha' hb'; exact h1
  · rcases h3 with h3 | ⟨c, hc, h3⟩
    · left
      refine ⟨a, by simp, b, by simp, ?_⟩
      have e1 := congrArg Prod.fst h3
      have e2 := congrArg Prod.snd h3
      dsimp only at e1 e2
      rw [e1, e2]
    · right
      obtain ⟨k1, k2⟩ := List.mem_product.mp hc
      exact ⟨c.1, k1, c.2, k2, h3⟩

lemma pairLoop_best (disc1 : ℕ → V3 ℝ → V3 ℝ → List (V3 ℝ)) (disc2 : V3 ℝ → V3 ℝ → List (V3 ℝ)) (fuel : ℕ) :
    ∀ (n : ℕ) (p1 p2 q1 q2 : V3 ℝ) (best : PairAnswer), (∀ r ∈ best, ∃ m a b c d, BestPair (disc1 m a b) (disc2 c d) r) →
    ∀ r, pairLoop disc1 disc2 fuel n p1 p2 q1 q2 best = some (.ok (some r)) → ∃ m a b c d, BestPair (disc1 m a b) (disc2 c d) r := by
  induction fuel with
  | zero => intro n p1 p2 q1 q2 best _ r h; cases h
  | succ k ih =>
    intro n p1 p2 q1 q2 best hb r h
    rw [pairLoop] at h
    rcases hd1 : disc1 (10 * n) p1 p2 with _ | ⟨a, as⟩
    · rw [hd1] at h; cases h; exact hb r rfl
    · rcases hd2 : disc2 q1 q2 with _ | ⟨b, bs⟩
      · rw [hd1, hd2] at h; cases h
      · rw [hd1, hd2] at h
        dsimp only at h
        rcases hs : pairScan ⟨p1, p2, q1, q2, V3.pointDistance b a, (b, a)⟩ (chords (a :: as)) (chords (b :: bs)) with _ | st
        · rw [hs] at h; cases h
        · rw [hs] at h
          have hbest := bestPair_of_scan hs
          rw [← hd1, ← hd2] at hbest
          dsimp only at h
          split_ifs at h with hc
          · cases h; exact ⟨_, _, _, _, _, hbest⟩
          · refine ih _ _ _ _ _ _ ?_ r h
            intro r' hr'
            rw [Option.mem_some_iff] at hr'
            subst hr'
            exact ⟨_, _, _, _, _, hbest⟩

/-- **C191** what is answered: a measured pair of the last turn, none of which is measured smaller; all of it between points of the edges, pairwise more than `1e-6` apart. -/
theorem C191_answer (e f : Edge) (start1 end1 start2 end2 : V3 ℝ) (fuel : ℕ) (r : ℝ × V3 ℝ × V3 ℝ)
    (h : genericMinimumDistance e f start1 end1 start2 end2 fuel = some (.ok (some r))) :
    ∃ l1 l2, BestPair l1 l2 r ∧ (∀ p ∈ l1, ∃ a, a ≤ e.length + 1 / 10 ^ 6 ∧ p = e.pointAt a) ∧
      (∀ p ∈ l2, ∃ a, a ≤ f.length + 1 / 10 ^ 6 ∧ p = f.pointAt a) ∧
      l1.Pairwise (fun p q => 1 / 10 ^ 6 < V3.pointDistance p q) ∧ l2.Pairwise (fun p q => 1 / 10 ^ 6 < V3.pointDistance p q) := by
  unfold genericMinimumDistance at h
  by_cases h0 : f.length = 0
  · rw [if_pos h0] at h; cases h
  rw [if_neg h0] at h
  obtain ⟨m, a, b, c, d, hb⟩ := pairLoop_best _ _ _ _ _ _ _ _ none (by simp) r h
  have hpts : ∀ (e : Edge) (a1 a2 : V3 ℝ) (num : ℕ), ∀ q ∈ localDiscretization e a1 a2 num, ∃ a, a ≤ e.length + 1 / 10 ^ 6 ∧ q = e.pointAt a := by
    intro e a1 a2 num q hq
    unfold localDiscretization at hq
    obtain ⟨kept, -, hk, hk3, -, -⟩ := C188_discretization e (e.abscissa a1) (e.abscissa a2) num
    rw [hk, List.map_map] at hq
    obtain ⟨i, hi, rfl⟩ := List.mem_map.mp hq
    exact ⟨_, hk3 i hi, rfl⟩
  have hpair : ∀ (e : Edge) (a1 a2 : V3 ℝ) (num : ℕ), (localDiscretization e a1 a2 num).Pairwise (fun p q => 1 / 10 ^ 6 < V3.pointDistance p q) := by
    intro e a1 a2 num
    unfold localDiscretization
    obtain ⟨kept, -, hk, -, hk4, -⟩ := C188_discretization e (e.abscissa a1) (e.abscissa a2) num
    rw [hk, List.map_map, List.pairwise_map]
    exact hk4
  exact ⟨_, _, hb, hpts e a b m, hpts f c d 10, hpair e a b m, hpair f c d 10⟩

/-- **C191** the distance answered is that of the two points answered. -/
theorem C191_points_distance (e f : Edge) (start1 end1 start2 end2 : V3 ℝ) (fuel : ℕ) (d : ℝ) (x y : V3 ℝ)
    (h : genericMinimumDistance e f start1 end1 start2 end2 fuel = some (.ok (some (d, x, y)))) : d = V3.pointDistance x y := by
  obtain ⟨l1, l2, ⟨-, -, h3⟩, -⟩ := C191_answer _ _ _ _ _ _ _ _ h
  rcases h3 with ⟨a, -, b, -, h3⟩ | ⟨c1, -, c2, -, h3⟩
  · cases h3; rfl
  · unfold distanceLinesegment at h3
    split at h3
    · cases h3
    · split at h3
      · cases h3; rfl
      · cases h3

/-- C191 as expected by a user: the first point is on (within a thousandth of) the first edge and the second on the second. -/
def C191_full_statement : Prop := ∀ (e f : Edge) (fuel : ℕ) (d : ℝ) (x y : V3 ℝ), e.Measured → f.Measured → e.Simple → f.Simple →
  genericMinimumDistance e f (e.pointAt 0) (e.pointAt e.length) (f.pointAt 0) (f.pointAt f.length) fuel = some (.ok (some (d, x, y))) →
  ∃ a, 0 ≤ a ∧ a ≤ e.length ∧ V3.pointDistance x (e.pointAt a) ≤ 1 / 10 ^ 3

/-- The segments of the first axis from 0 to -9 and from 1 to 10. -/
noncomputable def leftEdge : Edge := ⟨9, fun s => ⟨-s, 0, 0⟩, fun p => -p.x, false⟩
noncomputable def rightEdge : Edge := ⟨9, fun s => ⟨1 + s, 0, 0⟩, fun p => p.x - 1, false⟩

lemma leftEdge_measured : leftEdge.Measured := by
  intro s t
  unfold V3.pointDistance V3.norm leftEdge
  rw [Real.sqrt_le_left (abs_nonneg _), sq_abs]
  simp only [V3.sub_x, V3.sub_y, V3.sub_z]; nlinarith
lemma rightEdge_measured : rightEdge.Measured := by
  intro s t
  unfold V3.pointDistance V3.norm rightEdge
  rw [Real.sqrt_le_left (abs_nonneg _), sq_abs]
  simp only [V3.sub_x, V3.sub_y, V3.sub_z]; nlinarith
lemma leftEdge_simple : leftEdge.Simple := fun a _ _ => by simp [leftEdge]
lemma rightEdge_simple : rightEdge.Simple := fun a _ _ => by simp [rightEdge]

/-- Two segments of the first axis on both sides of the gap: what is measured. -/
lemma axis_distance {a b c d : V3 ℝ} (hab : a ≠ b) (hcd : c ≠ d) (ha : a.x ≤ 0 ∧ a.y = 0 ∧ a.z = 0) (hb : b.x ≤ 0 ∧ b.y = 0 ∧ b.z = 0)
    (hc : 1 ≤ c.x ∧ c.y = 0 ∧ c.z = 0) : ∃ dist x y, distanceLinesegment a b c d = some (dist, x, y) ∧ 1 ≤ dist := by
  obtain ⟨q1, e1, -, -, k1⟩ := backToSegment_spec hab c
  obtain ⟨q2, e2, -, k2, -⟩ := backToSegment_spec hcd c
  have hline : OnLineTol a b c := onLineTol_axis (by ext <;> simp [V3.cross, ha.2.1, ha.2.2, hb.2.1, hb.2.2, hc.2.1, hc.2.2])
  have hfar : ∀ x : V3 ℝ, x.x ≤ 0 → 1 ≤ V3.pointDistance x c := by
    intro x hx
    unfold V3.pointDistance V3.norm
    refine Real.le_sqrt_of_sq_le ?_
    simp only [V3.sub_x, V3.sub_y, V3.sub_z]
    nlinarith [mul_self_nonneg (x.y - c.y), mul_self_nonneg (x.z - c.z)]
  have hq2 : q2 = c := k2 ⟨_, onSeg_start _ _, by rw [pointDistance_self]; norm_num⟩
  have hq1 : q1.x ≤ 0 := by
    rw [k1 (by
      rintro ⟨x, ⟨t, h0, h1, hx, -, -⟩, hd⟩
      have := hfar x (by rw [hx]; nlinarith [ha.1, hb.1])
      norm_num at hd; linarith)]
    split_ifs
    · exact ha.1
    · exact hb.1
  refine ⟨V3.pointDistance q1 q2, q1, q2, ?_, ?_⟩
  · unfold distanceLinesegment Fillet.minimumDistancePointsLines
    rw [(linePointBelongs_spec hab _).1 hline]
    dsimp only
    rw [e1, e2]
  · rw [hq2]; exact hfar q1 hq1

lemma pairScan_keep (st : PairState) (l1 l2 : List (V3 ℝ × V3 ℝ))
    (h : ∀ c1 ∈ l1, ∀ c2 ∈ l2, ∃ d x y, distanceLinesegment c1.1 c1.2 c2.1 c2.2 = some (d, x, y) ∧ st.distance ≤ d) : pairScan st l1 l2 = some st := by
  unfold pairScan
  have h' : ∀ c ∈ l1.product l2, ∃ d x y, distanceLinesegment c.1.1 c.1.2 c.2.1 c.2.2 = some (d, x, y) ∧ st.distance ≤ d := by
    intro c hc
    obtain ⟨k1, k2⟩ := List.mem_product.mp hc
    exact h _ k1 _ k2
  generalize l1.product l2 = l at h'
  induction l with
  | nil => rfl
  | cons c l ih =>
    obtain ⟨d, x, y, hd, hle⟩ := h' c List.mem_cons_self
    rw [List.foldlM_cons, hd]
    dsimp only
    rw [if_neg (not_lt.mpr hle)]
    exact ih fun c' hc' => h' c' (List.mem_cons_of_mem _ hc')

/-- The first point of a discretization from the start. -/
lemma disc_start {e : Edge} (hs : e.Simple) (hl : 0 ≤ e.length) {num : ℕ} (hn : 0 < num) :
    ∃ qs, localDiscretization e (e.pointAt 0) (e.pointAt e.length) num = e.pointAt 0 :: qs ∧
      (∀ p ∈ e.pointAt 0 :: qs, ∃ i : ℕ, p = e.pointAt (sample 0 e.length num i)) ∧
      (e.pointAt 0 :: qs).Pairwise (fun p q => p ≠ q) := by
  obtain ⟨kept, hk1, hk2, -, hk4, hk5⟩ := C188_discretization e 0 e.length num
  rw [disc_at hs le_rfl hl le_rfl, hk2, List.map_map]
  have hs0 : sample 0 e.length num 0 = 0 := by simp [sample]
  obtain ⟨j, hj, hj0, -⟩ := hk5 0 hn (by rw [hs0]; linarith [(by norm_num : (0 : ℝ) ≤ 1 / 10 ^ 6)])
  cases kept with
  | nil => cases hj
  | cons k ks =>
    have hsorted : (k :: ks).Pairwise (· < ·) := List.pairwise_lt_range.sublist hk1
    have hk0 : k = 0 := by
      rcases List.mem_cons.mp hj with rfl | hj
      · omega
      · have := (List.pairwise_cons.mp hsorted).1 j hj; omega
    obtain ⟨f, hf⟩ : ∃ f : ℕ → V3 ℝ, f = fun i : ℕ => e.pointAt (sample 0 e.length num i) := ⟨_, rfl⟩
    have hfk : f k = e.pointAt 0 := by rw [hf, hk0]; dsimp only; rw [hs0]
    refine ⟨ks.map f, by rw [← hfk, hf]; rfl, ?_, ?_⟩
    · intro p hp
      rw [← hfk, ← List.map_cons] at hp
      obtain ⟨i, -, rfl⟩ := List.mem_map.mp hp
      exact ⟨i, by rw [hf]⟩
    · rw [← hfk, ← List.map_cons, List.pairwise_map]
      refine hk4.imp fun {i j} hij heq => ?_
      rw [hf] at heq
      dsimp only at heq
      rw [heq, pointDistance_self] at hij
      norm_num at hij

lemma chords_ne {l : List (V3 ℝ)} (h : l.Pairwise (fun p q => p ≠ q)) {c : V3 ℝ × V3 ℝ} (hc : c ∈ chords l) : c.1 ≠ c.2 ∧ c.1 ∈ l ∧ c.2 ∈ l := by
  obtain ⟨l1, l2, rfl⟩ := mem_chords hc
  refine ⟨?_, by simp, by simp⟩
  have := (List.pairwise_append.mp h).2.1
  exact (List.pairwise_cons.mp this).1 c.2 (by simp)

/-- **C191** false when the starts of the edges are their nearest points: the points come in the other order, the second edge first. -/
theorem C191_counterexample : ¬ C191_full_statement := by
  intro hfull
  obtain ⟨as, ha1, ha2, ha3⟩ := disc_start leftEdge_simple (by simp [leftEdge] : (0 : ℝ) ≤ leftEdge.length) (show 0 < 10 by norm_num)
  obtain ⟨bs, hb1, hb2, hb3⟩ := disc_start rightEdge_simple (by simp [rightEdge] : (0 : ℝ) ≤ rightEdge.length) (show 0 < 10 by norm_num)
  have hl0 : leftEdge.pointAt 0 = ⟨0, 0, 0⟩ := by simp [leftEdge]
  have hr0 : rightEdge.pointAt 0 = ⟨1, 0, 0⟩ := by simp [rightEdge]
  have hs : ∀ i : ℕ, 0 ≤ sample 0 9 10 i := by
    intro i; unfold sample; positivity
  have hleft : ∀ p ∈ leftEdge.pointAt 0 :: as, p.x ≤ 0 ∧ p.y = 0 ∧ p.z = 0 := by
    intro p hp
    obtain ⟨i, rfl⟩ := ha2 p hp
    have := hs i
    simp [leftEdge]; exact this
  have hright : ∀ p ∈ rightEdge.pointAt 0 :: bs, 1 ≤ p.x ∧ p.y = 0 ∧ p.z = 0 := by
    intro p hp
    obtain ⟨i, rfl⟩ := hb2 p hp
    have := hs i
    simp [rightEdge]; exact this
  have h1 : V3.pointDistance (rightEdge.pointAt 0) (leftEdge.pointAt 0) = 1 := by
    rw [hl0, hr0]; exact norm_eq (by norm_num) (by norm_num)
  have hscan : ∀ p1 p2 q1 q2, pairScan ⟨p1, p2, q1, q2, V3.pointDistance (rightEdge.pointAt 0) (leftEdge.pointAt 0), (rightEdge.pointAt 0, leftEdge.pointAt 0)⟩
      (chords (leftEdge.pointAt 0 :: as)) (chords (rightEdge.pointAt 0 :: bs)) =
      some ⟨p1, p2, q1, q2, V3.pointDistance (rightEdge.pointAt 0) (leftEdge.pointAt 0), (rightEdge.pointAt 0, leftEdge.pointAt 0)⟩ := by
    intro p1 p2 q1 q2
    refine pairScan_keep _ _ _ ?_
    intro c1 hc1 c2 hc2
    obtain ⟨n1, m1, m2⟩ := chords_ne ha3 hc1
    obtain ⟨n2, m3, -⟩ := chords_ne hb3 hc2
    rw [h1]
    exact axis_distance n1 n2 (hleft _ m1) (hleft _ m2) (hright _ m3)
  have hres : genericMinimumDistance leftEdge rightEdge (leftEdge.pointAt 0) (leftEdge.pointAt leftEdge.length) (rightEdge.pointAt 0)
      (rightEdge.pointAt rightEdge.length) 2 = some (.ok (some (1, rightEdge.pointAt 0, leftEdge.pointAt 0))) := by
    unfold genericMinimumDistance
    rw [if_neg (by simp [rightEdge])]
    have hn : max 1 ⌊leftEdge.length / rightEdge.length⌋₊ = 1 := by
      have : leftEdge.length / rightEdge.length = 1 := by norm_num [leftEdge, rightEdge]
      rw [this]; simp
    dsimp only
    rw [hn, pairLoop]
    rw [show 10 * 1 = 10 from rfl, ha1, hb1]
    dsimp only
    rw [hscan]
    dsimp only
    rw [if_neg (by simp), pairLoop]
    rw [show 10 * 1 = 10 from rfl, ha1, hb1]
    dsimp only
    rw [hscan]
    dsimp only
    rw [if_pos ⟨_, rfl, Surface.mathIsClose_self _ _ (by norm_num)⟩, h1]
  obtain ⟨a, h0, -, hd⟩ := hfull leftEdge rightEdge 2 _ _ _ leftEdge_measured rightEdge_measured leftEdge_simple rightEdge_simple hres
  have : 1 ≤ V3.pointDistance (rightEdge.pointAt 0) (leftEdge.pointAt a) := by
    rw [hr0]
    unfold V3.pointDistance V3.norm leftEdge
    refine Real.le_sqrt_of_sq_le ?_
    simp only [V3.sub_x, V3.sub_y, V3.sub_z]
    nlinarith
  norm_num at hd
  linarith

/-- **C191** (partial) the answer is never smaller than the distance of the chords: both points answered are within the tolerance of chords (or first points) of the two edges, in one
order or the other. -/
theorem C191_partial (e f : Edge) (start1 end1 start2 end2 : V3 ℝ) (fuel : ℕ) (d : ℝ) (x y : V3 ℝ)
    (h : genericMinimumDistance e f start1 end1 start2 end2 fuel = some (.ok (some (d, x, y)))) :
    (∃ s ≤ e.length + 1 / 10 ^ 6, ∃ t ≤ f.length + 1 / 10 ^ 6, x = f.pointAt t ∧ y = e.pointAt s) ∨
    (∃ s1 ≤ e.length + 1 / 10 ^ 6, ∃ s2 ≤ e.length + 1 / 10 ^ 6, ∃ t1 ≤ f.length + 1 / 10 ^ 6, ∃ t2 ≤ f.length + 1 / 10 ^ 6,
      e.pointAt s1 ≠ e.pointAt s2 ∧ f.pointAt t1 ≠ f.pointAt t2 ∧
        (∃ x', OnSeg3 (e.pointAt s1) (e.pointAt s2) x' ∧ V3.pointDistance x' x ≤ 1 / 10 ^ 6) ∧
        ∃ y', OnSeg3 (f.pointAt t1) (f.pointAt t2) y' ∧ V3.pointDistance y' y ≤ 1 / 10 ^ 6) := by
  obtain ⟨l1, l2, ⟨-, -, h3⟩, k1, k2, w1, w2⟩ := C191_answer _ _ _ _ _ _ _ _ h
  rcases h3 with ⟨a, ha, b, hb, h3⟩ | ⟨c1, hc1, c2, hc2, h3⟩
  · left
    obtain ⟨s, hs, rfl⟩ := k1 a (List.mem_of_mem_head? ha)
    obtain ⟨t, ht, rfl⟩ := k2 b (List.mem_of_mem_head? hb)
    cases h3
    exact ⟨s, hs, t, ht, rfl, rfl⟩
  · right
    obtain ⟨m1, m2, e1⟩ := mem_chords hc1
    obtain ⟨m3, m4, e2⟩ := mem_chords hc2
    obtain ⟨s1, hs1, g1⟩ := k1 c1.1 (by rw [e1]; simp)
    obtain ⟨s2, hs2, g2⟩ := k1 c1.2 (by rw [e1]; simp)
    obtain ⟨t1, ht1, g3⟩ := k2 c2.1 (by rw [e2]; simp)
    obtain ⟨t2, ht2, g4⟩ := k2 c2.2 (by rw [e2]; simp)
    have hne : ∀ {l m m' : List (V3 ℝ)} {p q : V3 ℝ}, l.Pairwise (fun p q => 1 / 10 ^ 6 < V3.pointDistance p q) → l = m ++ p :: q :: m' → p ≠ q := by
      rintro l m m' p q hw rfl rfl
      have := (List.pairwise_append.mp hw).2.1
      have := (List.pairwise_cons.mp this).1 p List.mem_cons_self
      rw [pointDistance_self] at this
      norm_num at this
    have n1 := hne w1 e1
    have n2 := hne w2 e2
    rw [g1, g2] at n1
    rw [g3, g4] at n2
    refine ⟨s1, hs1, s2, hs2, t1, ht1, t2, ht2, n1, n2, ?_⟩
    rw [g1, g2, g3, g4] at h3
    obtain ⟨dist, p, q, w1, -, w2, w3⟩ := C190_distance_reached _ _ _ _ n1 n2
    rw [h3] at w1
    cases w1
    exact ⟨w2, w3⟩

end Volmdlr.Search
