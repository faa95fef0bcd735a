import Verif.Hull.AngleLemmas
import Verif.Fillet.ArcProps
import Mathlib.Analysis.LocallyConvex.Separation
import Mathlib.Analysis.Convex.Topology
import Mathlib.Analysis.Convex.Combination
import Mathlib.Data.List.GetD

/-!
# C87: the convex hull of a list of points
-/

namespace Volmdlr.Hull

open Real Volmdlr.Angle Volmdlr.Arc

/-! ### Specification -/

/-- The points are more than `1e-6` apart and no three of them are within `1e-6` of a line (sine of the angle). -/
def GenPos (pts : List (V2 ℝ)) : Prop :=
  pts.Pairwise (fun p q => 1 / 10 ^ 6 < V2.pointDistance p q) ∧
  ∀ a ∈ pts, ∀ b ∈ pts, ∀ c ∈ pts, a ≠ b → b ≠ c → a ≠ c →
    1 / 10 ^ 6 * (V2.norm (b - a) * V2.norm (c - b)) < |V2.cross (b - a) (c - b)|

/-- The point as a pair. -/
def pair (p : V2 ℝ) : ℝ × ℝ := (p.x, p.y)

/-- The polygon has at least three distinct vertices, all among the points, each side has all the other points strictly on its
left, and it has the same convex hull as the points. -/
def IsHull (pts hull : List (V2 ℝ)) : Prop :=
  3 ≤ hull.length ∧ hull.Nodup ∧ (∀ p ∈ hull, p ∈ pts) ∧
  (∀ i (hi : i < hull.length), ∀ p ∈ pts, p ≠ hull[i] → p ≠ hull[(i + 1) % hull.length]'(Nat.mod_lt _ (by omega)) →
    0 < V2.cross (hull[(i + 1) % hull.length]'(Nat.mod_lt _ (by omega)) - hull[i]) (p - hull[i])) ∧
  convexHull ℝ {q | ∃ p ∈ hull, q = pair p} = convexHull ℝ {q | ∃ p ∈ pts, q = pair p}

/-! ### `argmin`, barycenter -/

theorem argminFrom_spec (l : List ℝ) : ∀ (L : List ℝ) (pos : ℕ) (best : ℝ × ℕ), pos ≤ L.length → L.drop pos = l →
    best.2 < L.length → L.getD best.2 0 = best.1 → (∀ x ∈ L.take pos, best.1 ≤ x) →
    (argminFrom pos best l).2 < L.length ∧ L.getD (argminFrom pos best l).2 0 = (argminFrom pos best l).1 ∧
    ∀ x ∈ L, (argminFrom pos best l).1 ≤ x := by
  induction l with
  | nil =>
    intro L pos best hp hd h1 h2 h3
    refine ⟨h1, h2, fun x hx => h3 x ?_⟩
    rw [List.take_of_length_le (List.drop_eq_nil_iff.1 hd)]
    exact hx
  | cons v l ih =>
    intro L pos best hp hd h1 h2 h3
    have hlt : pos < L.length := by
      by_contra hc
      rw [List.drop_eq_nil_of_le (by omega)] at hd
      simp at hd
    rw [List.drop_eq_getElem_cons hlt, List.cons.injEq] at hd
    rw [argminFrom]
    have ht : L.take (pos + 1) = L.take pos ++ [v] := by
      rw [List.take_add_one, List.getElem?_eq_getElem hlt, hd.1]; rfl
    apply ih L (pos + 1) _ hlt hd.2
    · split
      · exact hlt
      · exact h1
    · split
      · dsimp only; rw [List.getD_eq_getElem _ _ hlt, hd.1]
      · exact h2
    · intro x hx
      rw [ht, List.mem_append, List.mem_singleton] at hx
      split
      · rename_i h
        rcases hx with hx | rfl
        · exact h.le.trans (h3 x hx)
        · exact le_rfl
      · rename_i h
        rcases hx with hx | rfl
        · exact h3 x hx
        · exact not_lt.1 h

theorem argmin_spec (l : List ℝ) (h : l ≠ []) : ∃ v i, argmin l = some (v, i) ∧ i < l.length ∧ l.getD i 0 = v ∧ ∀ x ∈ l, v ≤ x := by
  match l, h with
  | v :: l, _ =>
    have := argminFrom_spec l (v :: l) 1 (v, 0) (by simp) rfl (by simp) rfl (by simp)
    exact ⟨_, _, rfl, this.1, this.2.1, this.2.2⟩

theorem argmax_spec (l : List ℝ) (h : l ≠ []) : ∃ v i, argmax l = some (v, i) ∧ i < l.length ∧ l.getD i 0 = v ∧ ∀ x ∈ l, x ≤ v := by
  obtain ⟨v, i, e, h1, h2, h3⟩ := argmin_spec (l.map fun v => -v) (by simpa using h)
  refine ⟨-v, i, by rw [argmax, e]; rfl, by simpa using h1, ?_, ?_⟩
  · have h1' : i < l.length := by simpa using h1
    rw [List.getD_eq_getElem _ _ h1, List.getElem_map] at h2
    rw [List.getD_eq_getElem _ _ h1', ← h2, neg_neg]
  · intro x hx
    have := h3 (-x) (List.mem_map.2 ⟨x, hx, rfl⟩)
    linarith

theorem barycenter_eq (pts : List (V2 ℝ)) (h : pts ≠ []) :
    (barycenter pts).x = (pts.map V2.x).sum / pts.length ∧ (barycenter pts).y = (pts.map V2.y).sum / pts.length := by
  have key : ∀ (l : List (V2 ℝ)) (b : V2 ℝ), (l.foldl (fun b p => b + p) b).x = b.x + (l.map V2.x).sum ∧
      (l.foldl (fun b p => b + p) b).y = b.y + (l.map V2.y).sum := by
    intro l
    induction l with
    | nil => intro b; simp
    | cons a l ih =>
      intro b
      rw [List.foldl_cons]
      obtain ⟨h1, h2⟩ := ih (b + a)
      rw [h1, h2]
      constructor
      · rw [List.map_cons, List.sum_cons, ← add_assoc]; rfl
      · rw [List.map_cons, List.sum_cons, ← add_assoc]; rfl
  match pts, h with
  | p :: l, _ =>
    obtain ⟨h1, h2⟩ := key l p
    unfold barycenter
    exact ⟨by simp only [List.tail_cons, List.headD_cons, h1, List.map_cons, List.sum_cons],
      by simp only [List.tail_cons, List.headD_cons, h2, List.map_cons, List.sum_cons]⟩

/-- An affine function at the barycenter is the mean of its values. -/
theorem barycenter_affine (pts : List (V2 ℝ)) (h : pts ≠ []) (a b c : ℝ) :
    a * (barycenter pts).x + b * (barycenter pts).y + c = (pts.map fun p => a * p.x + b * p.y + c).sum / pts.length := by
  obtain ⟨h1, h2⟩ := barycenter_eq pts h
  have hn : (pts.length : ℝ) ≠ 0 := by
    rw [Nat.cast_ne_zero]; exact fun h' => h (List.length_eq_zero_iff.1 h')
  rw [h1, h2, eq_div_iff hn]
  have : (pts.map fun p => a * p.x + b * p.y + c).sum = a * (pts.map V2.x).sum + b * (pts.map V2.y).sum + c * pts.length := by
    clear hn h h1 h2
    induction pts with
    | nil => simp
    | cons p l ih => simp only [List.map_cons, List.sum_cons, List.length_cons, ih]; push_cast; ring
  rw [this]
  field_simp

/-! ### Supporting edges -/

/-- All the points are on the left of `a → b`, two distinct points of the list. -/
def Sup (pts : List (V2 ℝ)) (a b : V2 ℝ) : Prop := a ∈ pts ∧ b ∈ pts ∧ a ≠ b ∧ ∀ p ∈ pts, 0 ≤ V2.cross (b - a) (p - a)

theorem sub_ne {a b : V2 ℝ} (h : a ≠ b) : b - a ≠ ⟨0, 0⟩ := by
  intro e
  apply h
  have hx := congrArg V2.x e
  have hy := congrArg V2.y e
  change b.x - a.x = 0 at hx
  change b.y - a.y = 0 at hy
  ext <;> linarith

theorem cross_sub (a b p : V2 ℝ) : V2.cross (b - a) (p - b) = V2.cross (b - a) (p - a) := by
  show (b.x - a.x) * (p.y - b.y) - (b.y - a.y) * (p.x - b.x) = (b.x - a.x) * (p.y - a.y) - (b.y - a.y) * (p.x - a.x)
  ring

theorem GenPos.cross_ne {pts : List (V2 ℝ)} (h : GenPos pts) {a b c : V2 ℝ} (ha : a ∈ pts) (hb : b ∈ pts) (hc : c ∈ pts)
    (h1 : a ≠ b) (h2 : b ≠ c) (h3 : a ≠ c) : V2.cross (b - a) (c - a) ≠ 0 := by
  intro e
  have := h.2 a ha b hb c hc h1 h2 h3
  rw [cross_sub, e, abs_zero] at this
  have p1 := norm_pos (sub_ne h1)
  have p2 := norm_pos (sub_ne h2)
  have : 0 < 1 / 10 ^ 6 * (V2.norm (b - a) * V2.norm (c - b)) := by positivity
  linarith

theorem Sup.pos {pts : List (V2 ℝ)} (hg : GenPos pts) {a b p : V2 ℝ} (h : Sup pts a b) (hp : p ∈ pts) (h1 : p ≠ a) (h2 : p ≠ b) :
    0 < V2.cross (b - a) (p - a) :=
  lt_of_le_of_ne (h.2.2.2 p hp) (Ne.symm (hg.cross_ne h.1 h.2.1 hp h.2.2.1 h2.symm h1.symm))

theorem Sup.inj {pts : List (V2 ℝ)} (hg : GenPos pts) {a a' q : V2 ℝ} (h : Sup pts a q) (h' : Sup pts a' q) : a = a' := by
  by_contra hne
  have h1 := h.pos hg h'.1 (Ne.symm hne) h'.2.2.1
  have h2 := h'.pos hg h.1 hne h.2.2.1
  have : V2.cross (q - a') (a - a') = -V2.cross (q - a) (a' - a) := by
    show (q.x - a'.x) * (a.y - a'.y) - (q.y - a'.y) * (a.x - a'.x) = -((q.x - a.x) * (a'.y - a.y) - (q.y - a.y) * (a'.x - a.x))
    ring
  linarith

theorem exists_third {pts : List (V2 ℝ)} (hn : pts.Nodup) (h3 : 3 ≤ pts.length) (a b : V2 ℝ) : ∃ p ∈ pts, p ≠ a ∧ p ≠ b := by
  classical
  by_contra hc
  push Not at hc
  have hs : pts.toFinset ⊆ {a, b} := by
    intro p hp
    rw [List.mem_toFinset] at hp
    by_cases h : p = a
    · simp [h]
    · simp [hc p hp h]
  have := Finset.card_le_card hs
  rw [List.toFinset_card_of_nodup hn] at this
  have := this.trans Finset.card_le_two
  omega

theorem GenPos.nodup {pts : List (V2 ℝ)} (h : GenPos pts) : pts.Nodup := by
  refine h.1.imp ?_
  rintro a b hab rfl
  have : V2.pointDistance a a = 0 := by
    unfold V2.pointDistance V2.norm
    show √((a.x - a.x) * (a.x - a.x) + (a.y - a.y) * (a.y - a.y)) = 0
    simp
  rw [this] at hab
  norm_num at hab

/-- The barycenter is strictly on the left of a supporting edge. -/
theorem Sup.bary {pts : List (V2 ℝ)} (hg : GenPos pts) (h3 : 3 ≤ pts.length) {a b : V2 ℝ} (h : Sup pts a b) :
    0 < V2.cross (b - a) (barycenter pts - a) := by
  have hne : pts ≠ [] := by rintro rfl; simp at h3
  obtain ⟨p, hp, h1, h2⟩ := exists_third hg.nodup h3 a b
  have e := barycenter_affine pts hne (-(b.y - a.y)) (b.x - a.x) ((b.y - a.y) * a.x - (b.x - a.x) * a.y)
  have e1 : ∀ q : V2 ℝ, V2.cross (b - a) (q - a) =
      -(b.y - a.y) * q.x + (b.x - a.x) * q.y + ((b.y - a.y) * a.x - (b.x - a.x) * a.y) := by
    intro q
    show (b.x - a.x) * (q.y - a.y) - (b.y - a.y) * (q.x - a.x) = _
    ring
  rw [e1, e]
  apply div_pos _ (by rw [Nat.cast_pos]; omega)
  have hpos := h.pos hg hp h1 h2
  have hnn : ∀ x ∈ pts.map fun p : V2 ℝ => -(b.y - a.y) * p.x + (b.x - a.x) * p.y + ((b.y - a.y) * a.x - (b.x - a.x) * a.y), 0 ≤ x := by
    intro x hx
    obtain ⟨q, hq, rfl⟩ := List.mem_map.1 hx
    rw [← e1]
    exact h.2.2.2 q hq
  have := List.single_le_sum hnn _ (List.mem_map.2 ⟨p, hp, rfl⟩)
  rw [← e1] at this
  linarith

theorem cross_bary (a b g : V2 ℝ) : V2.cross (a - g) (b - g) = V2.cross (b - a) (g - a) := by
  show (a.x - g.x) * (b.y - g.y) - (a.y - g.y) * (b.x - g.x) = (b.x - a.x) * (g.y - a.y) - (b.y - a.y) * (g.x - a.x)
  ring

theorem ne_zero_of_cross {u v : V2 ℝ} (h : V2.cross u v ≠ 0) : u ≠ ⟨0, 0⟩ ∧ v ≠ ⟨0, 0⟩ := by
  constructor
  · rintro rfl; apply h; unfold V2.cross; simp
  · rintro rfl; apply h; unfold V2.cross; simp

/-! ### One turn of the loop -/

theorem thetas_getD (vec o : V2 ℝ) (l : List (V2 ℝ)) (i : ℕ) (hi : i < l.length) :
    (thetas vec o l).getD i 0 = -clockwiseAngle vec (l.getD i ⟨0, 0⟩ - o) := by
  unfold thetas
  rw [List.getD_eq_getElem _ _ (by simpa using hi), List.getElem_map, List.getD_eq_getElem _ _ hi]

/-- The chosen point: in the list, with the smallest angle. -/
theorem choose_spec (vec o : V2 ℝ) (l : List (V2 ℝ)) (h : l ≠ []) :
    ∃ v i, argmin (thetas vec o l) = some (v, i) ∧ i < l.length ∧ l.getD i ⟨0, 0⟩ ∈ l ∧
      v = cc vec (l.getD i ⟨0, 0⟩ - o) - 2 * π ∧
      ∀ p ∈ l, cc vec (l.getD i ⟨0, 0⟩ - o) ≤ cc vec (p - o) := by
  obtain ⟨v, i, e, h1, h2, h3⟩ := argmin_spec (thetas vec o l) (by unfold thetas; simpa using h)
  have hi : i < l.length := by unfold thetas at h1; simpa using h1
  rw [thetas_getD vec o l i hi] at h2
  refine ⟨v, i, e, hi, ?_, ?_, ?_⟩
  · rw [List.getD_eq_getElem _ _ hi]; exact List.getElem_mem hi
  · unfold cc; linarith
  · intro p hp
    have := h3 (-clockwiseAngle vec (p - o)) (List.mem_map.2 ⟨p, hp, rfl⟩)
    unfold cc
    linarith

/-- If a point minimises the angle among all the others, it makes a supporting edge. -/
theorem sup_of_min {pts : List (V2 ℝ)} {prev next q : V2 ℝ} (hs : Sup pts prev next) (hq : q ∈ pts) (hqn : q ≠ next)
    (hmin : ∀ p ∈ pts, p ≠ next → cc (next - prev) (q - next) ≤ cc (next - prev) (p - next)) : Sup pts next q := by
  refine ⟨hs.2.1, hq, hqn.symm, fun p hp => ?_⟩
  by_cases h : p = next
  · subst h
    show 0 ≤ (q.x - p.x) * (p.y - p.y) - (q.y - p.y) * (p.x - p.x)
    simp
  · apply cross_nonneg_of_cc_le (sub_ne hs.2.2.1) (sub_ne hqn.symm) (sub_ne (Ne.symm h)) _ (hmin p hp h)
    rw [cross_sub]
    exact hs.2.2.2 p hp

/-- The minimum over the remaining points is the minimum over all of them. -/
theorem min_all {pts hull : List (V2 ℝ)} (hg : GenPos pts) (h3 : 3 ≤ pts.length) {prev next q : V2 ℝ}
    (hs : Sup pts prev next) (hchain : hull.IsChain (Sup pts)) (hnd : hull.Nodup)
    (hlast : ∃ h, hull = h ++ [next])
    (hqmin : ∀ p ∈ pts, p ∉ hull.tail → cc (next - prev) (q - next) ≤ cc (next - prev) (p - next)) :
    ∀ p ∈ pts, p ≠ next → cc (next - prev) (q - next) ≤ cc (next - prev) (p - next) := by
  classical
  obtain ⟨p0, hp0, hp0n, -⟩ := exists_third hg.nodup h3 next next
  have hex : ∃ s ∈ pts.toFinset.filter (fun p => p ≠ next), ∀ p ∈ pts.toFinset.filter (fun p => p ≠ next),
      cc (next - prev) (s - next) ≤ cc (next - prev) (p - next) :=
    Finset.exists_min_image _ _ ⟨p0, by simp [hp0, hp0n]⟩
  obtain ⟨s, hsm, hmin⟩ := hex
  simp only [Finset.mem_filter, List.mem_toFinset] at hsm hmin
  have hsup := sup_of_min hs hsm.1 hsm.2 (fun p hp hpn => hmin p ⟨hp, hpn⟩)
  have hsr : s ∉ hull.tail := by
    intro hst
    obtain ⟨h, rfl⟩ := hlast
    -- the predecessor of `s` in the hull
    obtain ⟨i, hi, e⟩ := List.mem_iff_getElem.1 hst
    rw [List.getElem_tail] at e
    have hlt : i + 1 < (h ++ [next]).length := by
      rw [List.length_tail] at hi; omega
    have hc := List.isChain_iff_getElem.1 hchain i hlt
    rw [e] at hc
    have e2 := Sup.inj hg hc hsup
    have hi2 : (h ++ [next])[i]'(by omega) = (h ++ [next])[h.length]'(by simp) := by rw [e2]; simp
    have := (List.Nodup.getElem_inj_iff hnd).1 hi2
    have h4 : (h ++ [next]).length = h.length + 1 := by simp
    omega
  intro p hp hpn
  exact (hqmin s hsm.1 hsr).trans (hmin p ⟨hp, hpn⟩)

/-- The two tolerance tests fail. -/
theorem tests_fail {pts : List (V2 ℝ)} (hg : GenPos pts) {prev next q : V2 ℝ} (hs : Sup pts prev next) (hq : Sup pts next q) :
    ¬ (mathIsClose (cc (next - prev) (q - next) - 2 * π) (-2 * π) (1 / 10 ^ 6) ∨
      mathIsClose (cc (next - prev) (q - next) - 2 * π) 0 (1 / 10 ^ 6)) := by
  have hu := sub_ne hs.2.2.1
  have hv := sub_ne hq.2.2.1
  obtain ⟨h1, h2, h3, h4⟩ := cc_spec hu hv
  have hp := mul_pos (norm_pos hu) (norm_pos hv)
  have hcr : 0 ≤ V2.cross (next - prev) (q - next) := by rw [cross_sub]; exact hs.2.2.2 q hq.2.1
  have hpi := (cc_le_pi hu hv).2 hcr
  have hpp := Real.pi_gt_three
  have hpl := Real.pi_lt_four
  unfold mathIsClose
  rintro (h | h)
  · have e : cc (next - prev) (q - next) - 2 * π - -2 * π = cc (next - prev) (q - next) := by ring
    rw [e, abs_of_nonneg h1, abs_of_nonpos (by linarith), abs_of_nonpos (by linarith)] at h
    have hsmall : cc (next - prev) (q - next) ≤ 1 / 10 ^ 6 := by
      refine h.trans (max_le ?_ le_rfl)
      have : max (-(cc (next - prev) (q - next) - 2 * π)) (-(-2 * π)) ≤ 8 := max_le (by linarith) (by linarith)
      nlinarith
    by_cases hqp : q = prev
    · have hd : V2.dot (next - prev) (q - next) < 0 := by
        rw [hqp]
        have := norm_sq (next - prev)
        have h5 : 0 < V2.norm (next - prev) * V2.norm (next - prev) := mul_pos (norm_pos hu) (norm_pos hu)
        show (next.x - prev.x) * (prev.x - next.x) + (next.y - prev.y) * (prev.y - next.y) < 0
        change _ = (next.x - prev.x) * (next.x - prev.x) + (next.y - prev.y) * (next.y - prev.y) at this
        nlinarith
      have hcp : 0 < cos (cc (next - prev) (q - next)) := cos_pos_of_mem_Ioo ⟨by linarith, by
        have : (1 : ℝ) / 10 ^ 6 < 1 := by norm_num
        linarith⟩
      nlinarith
    · have h5 := hg.2 prev hs.1 next hs.2.1 q hq.2.1 hs.2.2.1 hq.2.2.1 (Ne.symm hqp)
      rw [abs_of_nonneg hcr, ← h4] at h5
      have h6 := Real.sin_le h1
      have : sin (cc (next - prev) (q - next)) ≤ 1 / 10 ^ 6 := h6.trans hsmall
      nlinarith
  · rw [sub_zero, abs_zero, abs_of_nonpos (by linarith)] at h
    have hm : max (-(cc (next - prev) (q - next) - 2 * π)) 0 = -(cc (next - prev) (q - next) - 2 * π) :=
      max_eq_left (by linarith)
    rw [hm] at h
    rcases le_max_iff.1 h with h | h
    · nlinarith
    · have : (1 : ℝ) / 10 ^ 6 < 1 := by norm_num
      linarith

/-- The accumulated angle: at most one turn, and exact before the return. -/
theorem total_step {pts : List (V2 ℝ)} (hg : GenPos pts) (h3 : 3 ≤ pts.length) {start h1 next q : V2 ℝ}
    (hfirst : Sup pts start h1) (hq : Sup pts next q) (hqh : q ≠ h1)
    (hw0 : start - barycenter pts ≠ ⟨0, 0⟩) (hwn : next - barycenter pts ≠ ⟨0, 0⟩) :
    cc (start - barycenter pts) (next - barycenter pts) + cc (next - barycenter pts) (q - barycenter pts) ≤ 2 * π ∧
    (q ≠ start → cc (start - barycenter pts) (next - barycenter pts) + cc (next - barycenter pts) (q - barycenter pts) =
      cc (start - barycenter pts) (q - barycenter pts)) := by
  have hbq := hq.bary hg h3
  have hC := cross_bary next q (barycenter pts)
  rw [← hC] at hbq
  have hwq := (ne_zero_of_cross hbq.ne').2
  by_cases hlt : cc (start - barycenter pts) (next - barycenter pts) + cc (next - barycenter pts) (q - barycenter pts) < 2 * π
  · exact ⟨hlt.le, fun _ => cc_add hw0 hwn hwq hlt⟩
  · push Not at hlt
    obtain ⟨hB, hA⟩ := sector_of_cc hw0 hwn hwq hbq hlt
    have hbf := hfirst.bary hg h3
    have hFq := hfirst.2.2.2 q hq.2.1
    have hFn := hfirst.2.2.2 next hq.1
    have hsup := hq.2.2.2 start hfirst.1
    generalize barycenter pts = g at *
    have hqs : q = start := by
      by_contra hne
      have hFq' := hfirst.pos hg hq.2.1 hne hqh
      simp only [V2.cross, show ∀ p q : V2 ℝ, (p - q).x = p.x - q.x from fun _ _ => rfl,
        show ∀ p q : V2 ℝ, (p - q).y = p.y - q.y from fun _ _ => rfl] at *
      set A := (start.x - g.x) * (q.y - g.y) - (start.y - g.y) * (q.x - g.x) with hAd
      set B := (next.x - g.x) * (start.y - g.y) - (next.y - g.y) * (start.x - g.x) with hBd
      set C := (next.x - g.x) * (q.y - g.y) - (next.y - g.y) * (q.x - g.x) with hCd
      set Fq := (h1.x - start.x) * (q.y - start.y) - (h1.y - start.y) * (q.x - start.x) with hFqd
      set Fn := (h1.x - start.x) * (next.y - start.y) - (h1.y - start.y) * (next.x - start.x) with hFnd
      set Fg := (h1.x - start.x) * (g.y - start.y) - (h1.y - start.y) * (g.x - start.x) with hFgd
      have e1 : 0 ≤ C - A - B := by
        have : (q.x - next.x) * (start.y - next.y) - (q.y - next.y) * (start.x - next.x) = C - A - B := by
          rw [hAd, hBd, hCd]; ring
        linarith
      have e2 : A * Fn + B * Fq + (C - A - B) * Fg = 0 := by
        rw [hAd, hBd, hCd, hFqd, hFnd, hFgd]; ring
      have := mul_nonneg hA hFn
      have := mul_pos hB hFq'
      have := mul_nonneg e1 hbf.le
      linarith
    refine ⟨?_, fun h => absurd hqs h⟩
    rw [hqs]
    exact cc_back hw0 hwn

end Volmdlr.Hull
