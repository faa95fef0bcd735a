import Verif.Fillet.ArcProps
import Verif.Fillet.ChainProps

/-!
# C84 (distances) and C85: the test on the radii of a rounded polyline, `adapt_radius`
-/

namespace Volmdlr.Fillet

open Real Volmdlr.Angle Volmdlr.Arc

/-! ## C84: the gaps are below `2e-6` -/

theorem isClose2_dist {p q : V2 ℝ} (h : isClose2 p q (1 / 10 ^ 6)) : V2.pointDistance p q ≤ 1 / 10 ^ 6 := by
  unfold isClose2 mathIsClose at h
  have h0 : 0 ≤ V2.pointDistance p q := sqrt_nonneg _
  rw [sub_zero, abs_zero, abs_of_nonneg h0, max_eq_left h0] at h
  rcases le_max_iff.mp h with h | h
  · nlinarith
  · exact h

theorem pd2_triangle (p q m : V2 ℝ) : V2.pointDistance p q ≤ V2.pointDistance p m + V2.pointDistance m q := by
  have e : ∀ a b : V2 ℝ, V2.pointDistance a b = V3.pointDistance (⟨a.x, a.y, 0⟩ : V3 ℝ) ⟨b.x, b.y, 0⟩ := by
    intro a b
    rw [pd3_eq, pd2_eq]
    congr 1
    ring
  rw [e, e, e]
  exact V3.pointDistance_triangle _ _ _

open Classical in
/-- C84: with the tolerance of the library, two points that are `Near2` are at most `2e-6` apart. -/
theorem C84_gap {p q : V2 ℝ} (h : Near2 (fun p q => decide (isClose2 p q (1 / 10 ^ 6))) p q) :
    V2.pointDistance p q ≤ 2 / 10 ^ 6 := by
  have one : ∀ {p q : V2 ℝ}, Near (fun p q => decide (isClose2 p q (1 / 10 ^ 6))) p q → V2.pointDistance p q ≤ 1 / 10 ^ 6 := by
    intro p q h
    rcases h with rfl | h
    · rw [pd2_eq]; norm_num
    · exact isClose2_dist (of_decide_eq_true h)
  obtain ⟨m, h1, h2⟩ := h
  have := pd2_triangle p q m
  linarith [one h1, one h2]

/-! ## Features -/

theorem arcFeatures2_ends {a o b : V2 ℝ} {r : ℝ} {f : Feat (V2 ℝ)} (h : arcFeatures2 a o b r = .ok f) :
    0 < V2.norm (a - o) ∧ 0 < V2.norm (b - o) ∧ f.start = o + V2.smul (f.dist / V2.norm (a - o)) (a - o) ∧
      f.fin = o + V2.smul (f.dist / V2.norm (b - o)) (b - o) ∧ f.dist = r / tan f.alpha ∧ tan f.alpha ≠ 0 ∧
      f.alpha = arccos (-(V2.norm (a - b) ^ 2 - V2.norm (a - o) ^ 2 - V2.norm (b - o) ^ 2) / (2 * V2.norm (a - o) * V2.norm (b - o))) / 2 := by
  unfold arcFeatures2 at h
  dsimp only at h
  split at h
  · cases h
  · rename_i h0
    split at h
    · cases h
    · rename_i h1
      have n1 : 0 ≤ V2.norm (a - o) := sqrt_nonneg _
      have n2 : 0 ≤ V2.norm (b - o) := sqrt_nonneg _
      have p1 : 0 < V2.norm (a - o) := lt_of_le_of_ne n1 (fun h => h0 (by rw [← h]; ring))
      have p2 : 0 < V2.norm (b - o) := lt_of_le_of_ne n2 (fun h => h0 (by rw [← h]; ring))
      split at h
      · cases h
        refine ⟨p1, p2, ?_, ?_, rfl, h1, rfl⟩
        · ext <;> simp only [V2.add_x, V2.add_y, V2.smul_x, V2.smul_y] <;> field_simp
        · ext <;> simp only [V2.add_x, V2.add_y, V2.smul_x, V2.smul_y] <;> field_simp
      · cases h

theorem pyIndex_nat {α : Type*} (l : List α) (i : ℕ) (d : α) {a : α} : pyIndex l (i : ℤ) = .ok a ↔ i < l.length ∧ a = l.getD i d := by
  unfold pyIndex
  simp only [Int.natCast_nonneg, not_lt.mpr, if_false, Int.toNat_natCast]
  by_cases h : i < l.length
  · rw [List.getElem?_eq_getElem h]
    simp [h, eq_comm]
  · rw [List.getElem?_eq_none (by omega)]
    simp [h]

/-- The features of a corner that is not the first: the previous point, the point, and the next one. -/
theorem arcFeaturesAt_spec {points : List (V2 ℝ)} {closed : Bool} {radius : List (ℕ × ℝ)} {i : ℕ} {f : Feat (V2 ℝ)}
    (h : arcFeaturesAt points closed radius i = .ok f) :
    ∃ r pt1 pt2, lookup radius i = some r ∧ i < points.length ∧ arcFeatures2 pt1 (points.getD i ⟨0, 0⟩) pt2 r = .ok f ∧
      (1 ≤ i → pt1 = points.getD (i - 1) ⟨0, 0⟩) ∧ (i + 1 < points.length → pt2 = points.getD (i + 1) ⟨0, 0⟩) ∧
      (closed = false → i + 1 < points.length) ∧ getPoints points closed i = .ok (pt1, points.getD i ⟨0, 0⟩, pt2) := by
  unfold arcFeaturesAt at h
  split at h
  · cases h
  · rename_i r hr
    cases hp : getPoints points closed i with
    | error e => rw [hp] at h; cases h
    | ok p =>
      obtain ⟨pt1, pti, pt2⟩ := p
      rw [hp] at h
      change arcFeatures2 pt1 pti pt2 r = .ok f at h
      refine ⟨r, pt1, pt2, hr, ?_⟩
      unfold getPoints at hp
      have key : ∀ (k1 k2 : ℤ), (do
          let pt1 ← pyIndex points k1
          let pti ← pyIndex points i
          let pt2 ← pyIndex points k2
          return (pt1, pti, pt2) : Except PyErr (V2 ℝ × V2 ℝ × V2 ℝ)) = .ok (pt1, pti, pt2) →
          pyIndex points k1 = .ok pt1 ∧ pyIndex points i = .ok pti ∧ pyIndex points k2 = .ok pt2 := by
        intro k1 k2 hh
        cases h1 : pyIndex points k1 with
        | error e => rw [h1] at hh; cases hh
        | ok a =>
          cases h2 : pyIndex points (i : ℤ) with
          | error e => rw [h1, h2] at hh; cases hh
          | ok b =>
            cases h3 : pyIndex points k2 with
            | error e => rw [h1, h2, h3] at hh; cases hh
            | ok c => rw [h1, h2, h3] at hh; cases hh; exact ⟨rfl, rfl, rfl⟩
      have prev : ∀ {k : ℤ}, 1 ≤ i → k = (i : ℤ) - 1 → pyIndex points k = .ok pt1 → pt1 = points.getD (i - 1) ⟨0, 0⟩ := by
        intro k hi hk h1
        rw [hk, show (i : ℤ) - 1 = ((i - 1 : ℕ) : ℤ) by omega] at h1
        exact ((pyIndex_nat _ _ ⟨0, 0⟩).mp h1).2
      have next : ∀ {k : ℤ}, k = (i : ℤ) + 1 → pyIndex points k = .ok pt2 → i + 1 < points.length ∧ pt2 = points.getD (i + 1) ⟨0, 0⟩ := by
        intro k hk h1
        rw [hk, show (i : ℤ) + 1 = ((i + 1 : ℕ) : ℤ) by omega] at h1
        exact (pyIndex_nat _ _ ⟨0, 0⟩).mp h1
      cases closed with
      | true =>
        simp only [if_true] at hp
        obtain ⟨h1, h2, h3⟩ := key _ _ hp
        obtain ⟨hl, rfl⟩ := (pyIndex_nat _ _ ⟨0, 0⟩).mp h2
        refine ⟨hl, h, ?_, ?_, by simp, rfl⟩
        · intro hi
          rw [if_neg (by omega)] at h1
          exact prev hi rfl h1
        · intro hi
          rw [if_pos (by omega)] at h3
          exact (next rfl h3).2
      | false =>
        simp only [Bool.false_eq_true, if_false] at hp
        obtain ⟨h1, h2, h3⟩ := key _ _ hp
        obtain ⟨hl, rfl⟩ := (pyIndex_nat _ _ ⟨0, 0⟩).mp h2
        exact ⟨hl, h, fun hi => prev hi rfl h1, fun _ => (next rfl h3).2, fun _ => (next rfl h3).1, rfl⟩

theorem lengthBefore_eq {points : List (V2 ℝ)} {i : ℕ} (hi : 1 ≤ i) (hl : i < points.length) :
    lengthBefore points i = .ok (V2.norm (points.getD i ⟨0, 0⟩ - points.getD (i - 1) ⟨0, 0⟩)) := by
  unfold lengthBefore
  have h1 : pyIndex points ((i : ℤ) - 1) = .ok (points.getD (i - 1) ⟨0, 0⟩) := by
    rw [show (i : ℤ) - 1 = ((i - 1 : ℕ) : ℤ) by omega]
    exact (pyIndex_nat _ _ ⟨0, 0⟩).mpr ⟨by omega, rfl⟩
  have h2 : pyIndex points (i : ℤ) = .ok (points.getD i ⟨0, 0⟩) := (pyIndex_nat _ _ ⟨0, 0⟩).mpr ⟨hl, rfl⟩
  rw [h1, h2]; rfl

/-! ## C85 without `adapt_radius` -/

/-- For an increasing list, a property of neighbours `i, i+1` in the list is a property of all `i, i+1` of the list. -/
theorem sorted_chain {l : List ℕ} (hs : l.IsChain (· < ·)) (P : ℕ → Prop) :
    l.IsChain (fun i k => i + 1 = k → P i) ↔ ∀ i, i ∈ l → i + 1 ∈ l → P i := by
  induction l with
  | nil => simp
  | cons a l ih =>
    cases l with
    | nil => simp
    | cons b l =>
      rw [List.isChain_cons_cons] at hs ⊢
      rw [ih hs.2]
      have hlt : ∀ c ∈ b :: l, b ≤ c := by
        have := (List.isChain_iff_pairwise.mp hs.2)
        intro c hc
        rcases List.mem_cons.mp hc with rfl | hc
        · exact le_rfl
        · exact ((List.pairwise_cons.mp this).1 c hc).le
      constructor
      · rintro ⟨h1, h2⟩ i hi hi1
        rcases List.mem_cons.mp hi with rfl | hi
        · rcases List.mem_cons.mp hi1 with h | hi1
          · omega
          · have := hlt _ hi1
            exact h1 (by omega)
        · rcases List.mem_cons.mp hi1 with h | hi1
          · have := hlt _ hi; omega
          · exact h2 i hi hi1
      · intro h
        exact ⟨fun e => h a (by simp) (by rw [e]; simp), fun i hi hi1 => h i (List.mem_cons_of_mem _ hi) (List.mem_cons_of_mem _ hi1)⟩

/-- The length of the line between the points `i` and `i+1`. -/
noncomputable def edgeLength (points : List (V2 ℝ)) (i : ℕ) : ℝ :=
  V2.norm (points.getD (i + 1) ⟨0, 0⟩ - points.getD i ⟨0, 0⟩)

theorem checkRadii_eq {points : List (V2 ℝ)} {closed : Bool} {radius : List (ℕ × ℝ)} (F : ℕ → Feat (V2 ℝ)) (keys : List ℕ) :
    ∀ (j : ℕ), (∀ i ∈ keys, arcFeaturesAt points closed radius i = .ok (F i)) → (j :: keys).IsChain (· < ·) →
      (((j :: keys).IsChain (fun i k => i + 1 = k → (F i).dist + (F (i + 1)).dist ≤ edgeLength points i) ∧
        checkRadii points closed radius (some (j, (F j).dist)) keys = .ok ()) ∨
      (¬ (j :: keys).IsChain (fun i k => i + 1 = k → (F i).dist + (F (i + 1)).dist ≤ edgeLength points i) ∧
        checkRadii points closed radius (some (j, (F j).dist)) keys = .error .valueError)) := by
  induction keys with
  | nil => intro j _ _; left; exact ⟨List.isChain_singleton _, rfl⟩
  | cons i keys ih =>
    intro j hF hs
    rw [List.isChain_cons_cons] at hs
    have hi := hF i (by simp)
    obtain ⟨r, pt1, pt2, -, hl, -⟩ := arcFeaturesAt_spec hi
    have hrec := ih i (fun k hk => hF k (List.mem_cons_of_mem _ hk)) hs.2
    rw [List.isChain_cons_cons]
    unfold checkRadii
    rw [hi]
    by_cases hj : j + 1 = i
    · subst hj
      have hlen := lengthBefore_eq (points := points) (i := j + 1) (by omega) hl
      rw [Nat.add_sub_cancel] at hlen
      simp only [bind, Except.bind, if_true, hlen]
      by_cases hle : (F j).dist + (F (j + 1)).dist ≤ edgeLength points j
      · have hle' := hle
        unfold edgeLength at hle'
        simp only [hle']
        rcases hrec with ⟨h1, h2⟩ | ⟨h1, h2⟩
        · left; exact ⟨⟨fun _ => hle, h1⟩, by rw [if_pos trivial]; exact h2⟩
        · right; exact ⟨fun h => h1 h.2, by rw [if_pos trivial]; exact h2⟩
      · have hle' := hle
        unfold edgeLength at hle'
        simp only [hle']
        right
        exact ⟨fun h => hle (h.1 trivial), by simp⟩
    · simp only [bind, Except.bind, if_neg hj]
      rcases hrec with ⟨h1, h2⟩ | ⟨h1, h2⟩
      · left; exact ⟨⟨fun h => absurd h hj, h1⟩, h2⟩
      · right; exact ⟨fun h => h1 h.2, h2⟩

theorem makeArcs_ok {points : List (V2 ℝ)} {closed : Bool} {radius : List (ℕ × ℝ)} (F : ℕ → Feat (V2 ℝ)) (keys : List ℕ)
    (hF : ∀ i ∈ keys, arcFeaturesAt points closed radius i = .ok (F i)) :
    makeArcs points closed radius keys = .ok (keys.map fun i => (i, ((F i).start, (F i).interior, (F i).fin))) := by
  induction keys with
  | nil => rfl
  | cons i keys ih =>
    unfold makeArcs
    rw [hF i (by simp), ih fun k hk => hF k (List.mem_cons_of_mem _ hk)]
    rfl

/-- C85: when the features of all the rounded corners exist, `RoundedLineSegments` with `adapt_radius=False` gives its
primitives if and only if any two consecutive rounded corners fit in their common line, and raises `ValueError` otherwise.
(The line from the last point to the first one of a closed polyline is not part of the test.) -/
theorem C85_radii_iff (points : List (V2 ℝ)) (closed : Bool) (radius : List (ℕ × ℝ))
    (hs : (radius.map Prod.fst).IsChain (· < ·)) (F : ℕ → Feat (V2 ℝ))
    (hF : ∀ i ∈ radius.map Prod.fst, arcFeaturesAt points closed radius i = .ok (F i)) :
    ((∃ l, primitives2 points closed radius = .ok l) ↔ ∀ i, i ∈ radius.map Prod.fst → i + 1 ∈ radius.map Prod.fst →
      (F i).dist + (F (i + 1)).dist ≤ edgeLength points i) ∧
    ((∀ l, primitives2 points closed radius ≠ .ok l) → primitives2 points closed radius = .error .valueError) := by
  have hm := makeArcs_ok F _ hF
  rw [← sorted_chain hs (fun i => (F i).dist + (F (i + 1)).dist ≤ edgeLength points i)]
  generalize hk : radius.map Prod.fst = keys at *
  have hc : (keys.IsChain (fun i k => i + 1 = k → (F i).dist + (F (i + 1)).dist ≤ edgeLength points i) ∧
        checkRadii points closed radius none keys = .ok ()) ∨
      (¬ keys.IsChain (fun i k => i + 1 = k → (F i).dist + (F (i + 1)).dist ≤ edgeLength points i) ∧
        checkRadii points closed radius none keys = .error .valueError) := by
    cases keys with
    | nil => left; exact ⟨List.isChain_nil, rfl⟩
    | cons j keys =>
      have := checkRadii_eq F keys j (fun i hi => hF i (List.mem_cons_of_mem _ hi)) hs
      have e : checkRadii points closed radius none (j :: keys) = checkRadii points closed radius (some (j, (F j).dist)) keys := by
        conv_lhs => unfold checkRadii
        rw [hF j (by simp)]; rfl
      rwa [e]
  unfold primitives2
  rw [hk, hm]
  rcases hc with ⟨h1, h2⟩ | ⟨h1, h2⟩
  · rw [h2]
    exact ⟨⟨fun _ => h1, fun _ => ⟨_, rfl⟩⟩, fun h => absurd rfl (h _)⟩
  · rw [h2]
    exact ⟨⟨fun hl => (by obtain ⟨l, hl⟩ := hl; cases hl), fun h => absurd h h1⟩, fun _ => rfl⟩

/-- What a user expects of the test: when no `ValueError` is raised, the straight parts run along the lines of the polyline, in
their direction. -/
def C85_forward_full_statement : Prop :=
  ∀ (points : List (V2 ℝ)) (closed : Bool) (radius : List (ℕ × ℝ)) (l : List (Prim (V2 ℝ))),
    (radius.map Prod.fst).IsChain (· < ·) → (∀ e ∈ radius, 0 < e.2) → primitives2 points closed radius = .ok l →
    ∀ a b, Prim.line a b ∈ l →
      (∃ i, i + 1 < points.length ∧ ∃ k, 0 ≤ k ∧ b - a = V2.smul k (points.getD (i + 1) ⟨0, 0⟩ - points.getD i ⟨0, 0⟩)) ∨
      (closed = true ∧ ∃ k, 0 ≤ k ∧ b - a = V2.smul k (points.getD 0 ⟨0, 0⟩ - points.getD (points.length - 1) ⟨0, 0⟩))

/-- C85: the straight part between two consecutive rounded corners runs forward along the line. Missing: lines with only one
rounded end, and the closing line (counterexample below). -/
theorem C85_forward_partial (points : List (V2 ℝ)) (closed : Bool) (radius : List (ℕ × ℝ))
    (hs : (radius.map Prod.fst).IsChain (· < ·)) (F : ℕ → Feat (V2 ℝ))
    (hF : ∀ i ∈ radius.map Prod.fst, arcFeaturesAt points closed radius i = .ok (F i)) (l : List (Prim (V2 ℝ)))
    (hl : primitives2 points closed radius = .ok l) (i : ℕ) (hi : i ∈ radius.map Prod.fst) (hi1 : i + 1 ∈ radius.map Prod.fst) :
    ∃ k, 0 ≤ k ∧ (F (i + 1)).start - (F i).fin = V2.smul k (points.getD (i + 1) ⟨0, 0⟩ - points.getD i ⟨0, 0⟩) := by
  have h := ((C85_radii_iff points closed radius hs F hF).1.mp ⟨l, hl⟩) i hi hi1
  obtain ⟨r, pt1, pt2, -, hlen, hf, -, hnext, -⟩ := arcFeaturesAt_spec (hF i hi)
  obtain ⟨r', pt1', pt2', -, hlen', hf', hprev, -⟩ := arcFeaturesAt_spec (hF (i + 1) hi1)
  have e1 := hnext hlen'
  have e2 := hprev (by omega)
  rw [Nat.add_sub_cancel] at e2
  subst e1 e2
  obtain ⟨-, p2, -, q1, -⟩ := arcFeatures2_ends hf
  obtain ⟨p1', -, q2, -⟩ := arcFeatures2_ends hf'
  unfold edgeLength at h
  generalize points.getD (i + 1) ⟨0, 0⟩ = B at *
  generalize points.getD i ⟨0, 0⟩ = A at *
  have hn : V2.norm (A - B) = V2.norm (B - A) := by
    unfold V2.norm; congr 1; simp only [V2.sub_x, V2.sub_y]; ring
  rw [hn] at q2
  refine ⟨1 - ((F i).dist + (F (i + 1)).dist) / V2.norm (B - A), ?_, ?_⟩
  · rw [sub_nonneg, div_le_one p2]; exact h
  · rw [q1, q2]
    ext <;> simp only [V2.add_x, V2.add_y, V2.smul_x, V2.smul_y, V2.sub_x, V2.sub_y] <;> field_simp <;> ring

/-- A right corner with sides of any length: the tangent length is the radius. -/
theorem right_corner (a o b : V2 ℝ) (r : ℝ) (ha : V2.norm (a - o) ≠ 0) (hb : V2.norm (b - o) ≠ 0) (h : V2.dot (a - o) (b - o) = 0) :
    ∃ f, arcFeatures2 a o b r = .ok f ∧ f.dist = r ∧ f.alpha = π / 4 := by
  have hα : arccos (-(V2.norm (a - b) ^ 2 - V2.norm (a - o) ^ 2 - V2.norm (b - o) ^ 2) / (2 * V2.norm (a - o) * V2.norm (b - o))) / 2 = π / 4 := by
    rw [cos_arg2, h, mul_zero, zero_div, arccos_zero]; ring
  unfold arcFeatures2
  dsimp only
  rw [hα, tan_pi_div_four, if_neg (by positivity), if_neg one_ne_zero, div_one]
  have hn : ∀ u : V2 ℝ, u ≠ ⟨0, 0⟩ → ∃ v, V2.unitVector u = some v := by
    intro u hu
    unfold V2.unitVector
    rw [if_neg (V2.norm_pos' hu).ne']
    exact ⟨_, rfl⟩
  have n1 : V2.dot (V2.smul (1 / V2.norm (a - o)) (a - o)) (V2.smul (1 / V2.norm (a - o)) (a - o)) = 1 := by
    have : V2.dot (V2.smul (1 / V2.norm (a - o)) (a - o)) (V2.smul (1 / V2.norm (a - o)) (a - o)) =
      (1 / V2.norm (a - o)) ^ 2 * V2.dot (a - o) (a - o) := by simp only [V2.dot, V2.smul_x, V2.smul_y]; ring
    rw [this, ← V2.norm_sq']; field_simp
  have n12 : V2.dot (V2.smul (1 / V2.norm (a - o)) (a - o)) (V2.smul (1 / V2.norm (b - o)) (b - o)) = 0 := by
    have : V2.dot (V2.smul (1 / V2.norm (a - o)) (a - o)) (V2.smul (1 / V2.norm (b - o)) (b - o)) =
      (1 / V2.norm (a - o)) * (1 / V2.norm (b - o)) * V2.dot (a - o) (b - o) := by simp only [V2.dot, V2.smul_x, V2.smul_y]; ring
    rw [this, h, mul_zero]
  generalize V2.smul (1 / V2.norm (a - o)) (a - o) = u1 at *
  generalize V2.smul (1 / V2.norm (b - o)) (b - o) = u2 at *
  obtain ⟨w, hw⟩ : ∃ w, (open Classical in if isClose2 (u1 + u2) ⟨0, 0⟩ (1 / 10 ^ 6) then some (u1 + u2) else V2.unitVector (u1 + u2)) = some w := by
    split
    · exact ⟨_, rfl⟩
    · apply hn
      intro h0
      have hx := congrArg V2.x h0
      have hy := congrArg V2.y h0
      simp only [V2.add_x, V2.add_y, V2.dot] at hx hy n1 n12
      have : (1 : ℝ) = 0 := by linear_combination u1.x * hx + u1.y * hy - n1 - n12
      norm_num at this
  obtain ⟨v, hv⟩ := hn (V2.normalVector u1) (by
    intro h0
    have hx := congrArg V2.x h0
    have hy := congrArg V2.y h0
    simp only [V2.normalVector, V2.dot] at *
    nlinarith)
  simp only [hw, hv]
  exact ⟨_, rfl, rfl, rfl⟩

/-- C85 is false: the polyline `(0,0), (1,0), (1,1)` with radius `5` at the corner is accepted, and its first line goes from
`(0,0)` to `(-4,0)`. -/
theorem C85_forward_counterexample : ¬ C85_forward_full_statement := by
  intro h
  obtain ⟨f, hf, hd, -⟩ := right_corner ⟨0, 0⟩ ⟨1, 0⟩ ⟨1, 1⟩ 5 (by unfold V2.norm; norm_num) (by unfold V2.norm; norm_num)
    (by norm_num [V2.dot])
  obtain ⟨-, -, hst, -⟩ := arcFeatures2_ends hf
  have hst' : f.start = ⟨-4, 0⟩ := by
    rw [hst, hd]
    have : V2.norm ((⟨0, 0⟩ : V2 ℝ) - ⟨1, 0⟩) = 1 := by unfold V2.norm; norm_num
    rw [this]; ext <;> norm_num
  have hF : arcFeaturesAt [⟨0, 0⟩, ⟨1, 0⟩, ⟨1, 1⟩] false [(1, 5)] 1 = .ok f := by
    unfold arcFeaturesAt
    simp only [lookup, List.find?_cons, decide_true, Option.map_some]
    exact hf
  obtain ⟨l, hl⟩ : ∃ l, primitives2 [⟨0, 0⟩, ⟨1, 0⟩, ⟨1, 1⟩] false [(1, 5)] = .ok l := by
    refine (C85_radii_iff _ _ _ (by simp) (fun _ => f) ?_).1.mpr ?_
    · intro i hi
      have : i = 1 := by simpa using hi
      rw [this]; exact hF
    · intro i hi hi1
      simp at hi hi1; omega
  have hmem : Prim.line (⟨0, 0⟩ : V2 ℝ) ⟨-4, 0⟩ ∈ l := by
    have hm := makeArcs_ok (points := [⟨0, 0⟩, ⟨1, 0⟩, ⟨1, 1⟩]) (closed := false) (radius := [(1, 5)]) (fun _ => f) [1] (by
      intro i hi
      have : i = 1 := by simpa using hi
      rw [this]; exact hF)
    unfold primitives2 at hl
    simp only [List.map_cons, List.map_nil, hm] at hl
    have hck : checkRadii [⟨0, 0⟩, ⟨1, 0⟩, ⟨1, 1⟩] false [(1, 5)] none [1] = .ok () := by
      unfold checkRadii; rw [hF]; rfl
    rw [hck] at hl
    cases hl
    have := (C84_lines (fun p q => (open Classical in decide (isClose2 p q (1 / 10 ^ 6)))) (fun i => ([⟨0, 0⟩, ⟨1, 0⟩, ⟨1, 1⟩] : List (V2 ℝ)).getD i ⟨0, 0⟩)
      (fun i => (([(1, f.start, f.interior, f.fin)] : List (ℕ × (V2 ℝ × V2 ℝ × V2 ℝ))).find? fun e => e.1 = i).map Prod.snd) 3 false).1 0 (by norm_num)
    have e1 : leave (fun i => ([⟨0, 0⟩, ⟨1, 0⟩, ⟨1, 1⟩] : List (V2 ℝ)).getD i ⟨0, 0⟩)
      (fun i => (([(1, f.start, f.interior, f.fin)] : List (ℕ × (V2 ℝ × V2 ℝ × V2 ℝ))).find? fun e => e.1 = i).map Prod.snd) 0 = ⟨0, 0⟩ := by
      simp [leave]
    have e2 : arrive (fun i => ([⟨0, 0⟩, ⟨1, 0⟩, ⟨1, 1⟩] : List (V2 ℝ)).getD i ⟨0, 0⟩)
      (fun i => (([(1, f.start, f.interior, f.fin)] : List (ℕ × (V2 ℝ × V2 ℝ × V2 ℝ))).find? fun e => e.1 = i).map Prod.snd) (0 + 1) = ⟨-4, 0⟩ := by
      simp [arrive, hst']
    rw [e1, e2] at this
    rcases this with h | h
    · exact h
    · exfalso
      have := isClose2_dist (by classical exact decide_eq_true_iff.mp h)
      rw [pd2_eq] at this
      have h4 : √((0 - -4 : ℝ) ^ 2 + (0 - 0) ^ 2) = 4 := by
        rw [show ((0 : ℝ) - -4) ^ 2 + (0 - 0) ^ 2 = 4 ^ 2 by norm_num, sqrt_sq (by norm_num)]
      simp only at this
      rw [h4] at this
      norm_num at this
  rcases h _ _ _ l (by simp) (by simp) hl _ _ hmem with ⟨i, hi, k, hk, e⟩ | ⟨h, -⟩
  · have hx := congrArg V2.x e
    simp only [List.length_cons, List.length_nil] at hi
    have hi' : i = 0 ∨ i = 1 := by omega
    rcases hi' with rfl | rfl
    · simp at hx; linarith
    · simp at hx
  · cases h

/-- A polyline with two consecutive rounded corners satisfying the hypotheses of `C85_radii_iff` and `C85_forward_partial`:
`(0,0), (4,0), (4,4), (0,4)` with radii `1` at the two inner corners. -/
example : ∃ F : ℕ → Feat (V2 ℝ), (∀ i ∈ ([(1, 1), (2, 1)] : List (ℕ × ℝ)).map Prod.fst,
    arcFeaturesAt [⟨0, 0⟩, ⟨4, 0⟩, ⟨4, 4⟩, ⟨0, 4⟩] false [(1, 1), (2, 1)] i = .ok (F i)) ∧
    ∃ l, primitives2 [⟨0, 0⟩, ⟨4, 0⟩, ⟨4, 4⟩, ⟨0, 4⟩] false [(1, 1), (2, 1)] = .ok l := by
  obtain ⟨f1, hf1, hd1, -⟩ := right_corner ⟨0, 0⟩ ⟨4, 0⟩ ⟨4, 4⟩ 1 (by unfold V2.norm; norm_num) (by unfold V2.norm; norm_num)
    (by norm_num [V2.dot])
  obtain ⟨f2, hf2, hd2, -⟩ := right_corner ⟨4, 0⟩ ⟨4, 4⟩ ⟨0, 4⟩ 1 (by unfold V2.norm; norm_num) (by unfold V2.norm; norm_num)
    (by norm_num [V2.dot])
  have hF : ∀ i ∈ ([(1, 1), (2, 1)] : List (ℕ × ℝ)).map Prod.fst,
      arcFeaturesAt [⟨0, 0⟩, ⟨4, 0⟩, ⟨4, 4⟩, ⟨0, 4⟩] false [(1, 1), (2, 1)] i = .ok ((fun i => if i = 1 then f1 else f2) i) := by
    intro i hi
    have hi' : i = 1 ∨ i = 2 := by simpa using hi
    rcases hi' with rfl | rfl
    · simp only [arcFeaturesAt, lookup, List.find?_cons, decide_true, Option.map_some]; exact hf1
    · simp [arcFeaturesAt, lookup]; exact hf2
  refine ⟨_, hF, (C85_radii_iff _ _ _ (by simp) _ hF).1.mpr ?_⟩
  intro i hi hi1
  have hi' : i = 1 := by simp at hi hi1; omega
  subst hi'
  have : edgeLength [⟨0, 0⟩, ⟨4, 0⟩, ⟨4, 4⟩, ⟨0, 4⟩] 1 = 4 := by
    unfold edgeLength V2.norm
    simp
  rw [this]
  simp [hd1, hd2]
  norm_num

open Classical in
/-- C84 for `RoundedLineSegments2D` itself (`adapt_radius=False`): when the primitives are produced, two consecutive ones are at most
`2e-6` apart, and so are the last and the first ones of a closed polyline; the arcs are those of the rounded corners, in order. -/
theorem C84_primitives (points : List (V2 ℝ)) (closed : Bool) (radius : List (ℕ × ℝ)) (hn : 2 ≤ points.length) (l : List (Prim (V2 ℝ)))
    (hl : primitives2 points closed radius = .ok l) (hopen : closed = false → 0 ∉ radius.map Prod.fst) :
    l.IsChain (fun p q => V2.pointDistance p.fin q.start ≤ 2 / 10 ^ 6) ∧ l ≠ [] ∧
      (closed = true → ∀ p ∈ l.getLast?, ∀ q ∈ l.head?, V2.pointDistance p.fin q.start ≤ 2 / 10 ^ 6) ∧
      (closed = false → (∀ p ∈ l.head?, V2.pointDistance (points.getD 0 ⟨0, 0⟩) p.start ≤ 1 / 10 ^ 6) ∧
        ∀ p ∈ l.getLast?, V2.pointDistance p.fin (points.getD (points.length - 1) ⟨0, 0⟩) ≤ 1 / 10 ^ 6) := by
  have one : ∀ {p q : V2 ℝ}, Near (fun p q => decide (isClose2 p q (1 / 10 ^ 6))) p q → V2.pointDistance p q ≤ 1 / 10 ^ 6 := by
    intro p q h
    rcases h with rfl | h
    · rw [pd2_eq]; norm_num
    · exact isClose2_dist (of_decide_eq_true h)
  unfold primitives2 at hl
  cases hc : checkRadii points closed radius none (radius.map Prod.fst) with
  | error e => rw [hc] at hl; cases hl
  | ok u =>
    cases hm : makeArcs points closed radius (radius.map Prod.fst) with
    | error e => rw [hc, hm] at hl; cases hl
    | ok arcs =>
      rw [hc, hm] at hl
      cases hl
      -- the keys of the arcs are the keys of the radii, and they have features
      have keys : ∀ (ks : List ℕ) (as : List (ℕ × (V2 ℝ × V2 ℝ × V2 ℝ))), makeArcs points closed radius ks = .ok as →
          as.map Prod.fst = ks ∧ ∀ i ∈ ks, ∃ f, arcFeaturesAt points closed radius i = .ok f := by
        intro ks
        induction ks with
        | nil => intro as h; cases h; simp
        | cons i ks ih =>
          intro as h
          unfold makeArcs at h
          cases hf : arcFeaturesAt points closed radius i with
          | error e => rw [hf] at h; cases h
          | ok f =>
            cases hk : makeArcs points closed radius ks with
            | error e => rw [hf, hk] at h; cases h
            | ok as' =>
              rw [hf, hk] at h
              cases h
              obtain ⟨h1, h2⟩ := ih as' hk
              refine ⟨by simp [h1], ?_⟩
              intro j hj
              rcases List.mem_cons.mp hj with rfl | hj
              · exact ⟨f, hf⟩
              · exact h2 j hj
      obtain ⟨k1, k2⟩ := keys _ _ hm
      have noarc : ∀ i, i ∉ radius.map Prod.fst → (arcs.find? fun e => e.1 = i).map Prod.snd = none := by
        intro i hi
        rw [Option.map_eq_none_iff, List.find?_eq_none]
        intro e he
        have : e.1 ∈ arcs.map Prod.fst := List.mem_map_of_mem he
        rw [k1] at this
        simp only [decide_eq_true_eq]
        rintro rfl
        exact hi this
      cases closed with
      | true =>
        obtain ⟨c1, c2, c3⟩ := C84_closed (fun p q => decide (isClose2 p q (1 / 10 ^ 6))) (fun i => points.getD i ⟨0, 0⟩)
          (fun i => (arcs.find? fun e => e.1 = i).map Prod.snd) points.length hn
        refine ⟨c1.imp fun _ _ h => C84_gap h, c2, fun _ p hp q hq => C84_gap (c3 p hp q hq), by simp⟩
      | false =>
        have hlast : points.length - 1 ∉ radius.map Prod.fst := by
          intro h
          obtain ⟨f, hf⟩ := k2 _ h
          obtain ⟨_, _, _, _, _, _, _, _, h', _⟩ := arcFeaturesAt_spec hf
          have := h' rfl
          omega
        obtain ⟨c1, ⟨p, c2, c2'⟩, q, c3, c3'⟩ := C84_open (fun p q => decide (isClose2 p q (1 / 10 ^ 6))) (fun i => points.getD i ⟨0, 0⟩)
          (fun i => (arcs.find? fun e => e.1 = i).map Prod.snd) points.length hn (noarc 0 (hopen rfl)) (noarc _ hlast)
        refine ⟨c1.imp fun _ _ h => C84_gap h, ?_, by simp, fun _ => ⟨?_, ?_⟩⟩
        · intro h0; rw [h0] at c2; cases c2
        · intro p' hp'; rw [Option.mem_def, c2] at hp'; cases hp'; exact one c2'
        · intro p' hp'; rw [Option.mem_def, c3] at hp'; cases hp'; exact one c3'

end Volmdlr.Fillet
