import Verif.Voxel.PixelProps
import Verif.Voxel.FillProps
import Verif.Voxel.FloodProps

/-!
# The filled pixels of a triangle in the plane
-/

namespace Volmdlr
open Voxel

variable {K : Type} [Field K] [LinearOrder K] [IsStrictOrderedRing K]

/-- **Specification.** The point is in the closed triangle. -/
def InTri2 (t : Tri2 K) (p : K × K) : Prop :=
  ∃ a b c : K, 0 ≤ a ∧ 0 ≤ b ∧ 0 ≤ c ∧ a + b + c = 1 ∧
    p = (a * t.1.1 + b * t.2.1.1 + c * t.2.2.1, a * t.1.2 + b * t.2.1.2 + c * t.2.2.2)

/-- **Specification.** The closed pixel shares a point with the closed triangle. -/
def TriMeetsPixel (size : K) (t : Tri2 K) (i j : ℤ) : Prop := ∃ p, InTri2 t p ∧ InPixel size i j p

namespace Voxel

/-- The point is on a side of the triangle. -/
def OnSide (t : Tri2 K) (p : K × K) : Prop := OnSegment t.1 t.2.1 p ∨ OnSegment t.2.1 t.2.2 p ∨ OnSegment t.2.2 t.1 p

lemma side_of_zero {t : Tri2 K} {p : K × K} {a b c : K} (ha : 0 ≤ a) (hb : 0 ≤ b) (hc : 0 ≤ c) (h : a + b + c = 1)
    (hp : p = (a * t.1.1 + b * t.2.1.1 + c * t.2.2.1, a * t.1.2 + b * t.2.1.2 + c * t.2.2.2)) (hz : a = 0 ∨ b = 0 ∨ c = 0) : OnSide t p := by
  rcases hz with rfl | rfl | rfl
  · right; left
    refine ⟨c, hc, by linarith, ?_⟩
    have : b = 1 - c := by linarith
    rw [hp, this]; ext <;> dsimp only <;> ring
  · right; right
    refine ⟨a, ha, by linarith, ?_⟩
    have : c = 1 - a := by linarith
    rw [hp, this]; ext <;> dsimp only <;> ring
  · left
    refine ⟨b, hb, by linarith, ?_⟩
    have : a = 1 - b := by linarith
    rw [hp, this]; ext <;> dsimp only <;> ring

lemma inTri2_of_side {t : Tri2 K} {p : K × K} (h : OnSide t p) : InTri2 t p := by
  rcases h with ⟨s, h0, h1, rfl⟩ | ⟨s, h0, h1, rfl⟩ | ⟨s, h0, h1, rfl⟩
  · exact ⟨1 - s, s, 0, by linarith, h0, le_rfl, by ring, by ext <;> dsimp only <;> ring⟩
  · exact ⟨0, 1 - s, s, le_rfl, by linarith, h0, by ring, by ext <;> dsimp only <;> ring⟩
  · exact ⟨s, 0, 1 - s, h0, le_rfl, by linarith, by ring, by ext <;> dsimp only <;> ring⟩

/-- The points of a flat triangle are on its sides. -/
lemma flat_side {t : Tri2 K} (h : (t.2.1.1 - t.1.1) * (t.2.2.2 - t.1.2) - (t.2.1.2 - t.1.2) * (t.2.2.1 - t.1.1) = 0) {p : K × K}
    (hp : InTri2 t p) : OnSide t p := by
  obtain ⟨a, b, c, ha, hb, hc, hsum, hp⟩ := hp
  by_cases he : t.1 = t.2.1
  · refine side_of_zero (a := 0) (b := a + b) (c := c) le_rfl (add_nonneg ha hb) hc (by linarith) ?_ (Or.inl rfl)
    rw [hp, he]; ext <;> dsimp only <;> ring
  · obtain ⟨l, hl1, hl2⟩ : ∃ l, t.2.2.1 = t.1.1 + l * (t.2.1.1 - t.1.1) ∧ t.2.2.2 = t.1.2 + l * (t.2.1.2 - t.1.2) := by
      by_cases hx : t.2.1.1 - t.1.1 = 0
      · have hy : t.2.1.2 - t.1.2 ≠ 0 := fun hy => he (Prod.ext (by linarith) (by linarith))
        refine ⟨(t.2.2.2 - t.1.2) / (t.2.1.2 - t.1.2), ?_, ?_⟩
        · have : (t.2.1.2 - t.1.2) * (t.2.2.1 - t.1.1) = 0 := by rw [hx] at h; linear_combination -h
          rcases mul_eq_zero.1 this with h' | h'
          · exact absurd h' hy
          · rw [hx]; linarith
        · rw [div_mul_cancel₀ _ hy]; ring
      · refine ⟨(t.2.2.1 - t.1.1) / (t.2.1.1 - t.1.1), ?_, ?_⟩
        · rw [div_mul_cancel₀ _ hx]; ring
        · rw [div_mul_eq_mul_div]
          have : (t.2.2.1 - t.1.1) * (t.2.1.2 - t.1.2) / (t.2.1.1 - t.1.1) = t.2.2.2 - t.1.2 := by
            rw [div_eq_iff hx]; linear_combination -h
          rw [this]; ring
    rcases lt_or_ge l 0 with hneg | hpos
    · -- the first point is between the two others
      have hd : 0 < 1 - l := by linarith
      have e1 : t.1.1 = (1 / (1 - l)) * t.2.2.1 + (-l / (1 - l)) * t.2.1.1 := by
        rw [hl1]; field_simp; ring
      have e2 : t.1.2 = (1 / (1 - l)) * t.2.2.2 + (-l / (1 - l)) * t.2.1.2 := by
        rw [hl2]; field_simp; ring
      have n1 : 0 ≤ 1 / (1 - l) := by positivity
      have n2 : 0 ≤ -l / (1 - l) := div_nonneg (by linarith) hd.le
      have n3 : 1 / (1 - l) + -l / (1 - l) = 1 := by field_simp; ring
      generalize 1 / (1 - l) = u at *
      generalize -l / (1 - l) = w at *
      refine side_of_zero (a := 0) (b := b + a * w) (c := c + a * u) le_rfl (by positivity) (by positivity) (by linear_combination hsum + a * n3) ?_ (Or.inl rfl)
      rw [hp]; ext <;> dsimp only
      · linear_combination a * e1
      · linear_combination a * e2
    · rcases le_or_gt l 1 with hle | hgt
      · have h1l : 0 ≤ 1 - l := by linarith
        refine side_of_zero (a := a + c * (1 - l)) (b := b + c * l) (c := 0) (by positivity) (by positivity) le_rfl (by linear_combination hsum) ?_ (Or.inr (Or.inr rfl))
        rw [hp]; ext <;> dsimp only
        · linear_combination c * hl1
        · linear_combination c * hl2
      · have hd : 0 < l := by linarith
        have e1 : t.2.1.1 = (1 / l) * t.2.2.1 + ((l - 1) / l) * t.1.1 := by rw [hl1]; field_simp; ring
        have e2 : t.2.1.2 = (1 / l) * t.2.2.2 + ((l - 1) / l) * t.1.2 := by rw [hl2]; field_simp; ring
        have n1 : 0 ≤ 1 / l := by positivity
        have n2 : 0 ≤ (l - 1) / l := div_nonneg (by linarith) hd.le
        have n3 : 1 / l + (l - 1) / l = 1 := by field_simp; ring
        generalize 1 / l = u at *
        generalize (l - 1) / l = w at *
        refine side_of_zero (a := a + b * w) (b := 0) (c := c + b * u) (by positivity) le_rfl (by positivity) (by linear_combination hsum + b * n3) ?_ (Or.inr (Or.inl rfl))
        rw [hp]; ext <;> dsimp only
        · linear_combination b * e1
        · linear_combination b * e2

/-- Weights: going from weights that are not negative to weights one of which is negative, one passes by weights that are not
negative and one of which is zero. -/
lemma weights_exit {a b c a' b' c' : K} (ha : 0 ≤ a) (hb : 0 ≤ b) (hc : 0 ≤ c) (h : a' < 0 ∨ b' < 0 ∨ c' < 0) :
    ∃ s, 0 ≤ s ∧ s ≤ 1 ∧ 0 ≤ a + s * (a' - a) ∧ 0 ≤ b + s * (b' - b) ∧ 0 ≤ c + s * (c' - c) ∧
      (a + s * (a' - a) = 0 ∨ b + s * (b' - b) = 0 ∨ c + s * (c' - c) = 0) := by
  -- the exit parameter of one weight
  have one : ∀ x x' : K, 0 ≤ x → ∃ e, 0 ≤ e ∧ e ≤ 1 ∧ (∀ s, 0 ≤ s → s ≤ e → 0 ≤ x + s * (x' - x)) ∧ (x' < 0 → x + e * (x' - x) = 0) ∧ (0 ≤ x' → e = 1) := by
    intro x x' hx
    by_cases hx' : x' < 0
    · have hd : 0 < x - x' := by linarith
      refine ⟨x / (x - x'), by positivity, by rw [div_le_one hd]; linarith, fun s s0 s1 => ?_, fun _ => ?_, fun h => absurd h (by linarith)⟩
      · rw [le_div_iff₀ hd] at s1; linarith
      · have := div_mul_cancel₀ x hd.ne'
        linear_combination -this
    · push Not at hx'
      refine ⟨1, zero_le_one, le_rfl, fun s s0 s1 => ?_, fun h => absurd hx' (by linarith), fun _ => rfl⟩
      have e : x + s * (x' - x) = (1 - s) * x + s * x' := by ring
      rw [e]
      exact add_nonneg (mul_nonneg (by linarith) hx) (mul_nonneg s0 hx')
  obtain ⟨ea, a0, a1, a2, a3, a4⟩ := one a a' ha
  obtain ⟨eb, b0, b1, b2, b3, b4⟩ := one b b' hb
  obtain ⟨ec, c0, c1, c2, c3, c4⟩ := one c c' hc
  have hm0 : 0 ≤ min ea (min eb ec) := le_min a0 (le_min b0 c0)
  refine ⟨min ea (min eb ec), hm0, le_trans (min_le_left _ _) a1, a2 _ hm0 (min_le_left _ _),
    b2 _ hm0 (le_trans (min_le_right _ _) (min_le_left _ _)), c2 _ hm0 (le_trans (min_le_right _ _) (min_le_right _ _)), ?_⟩
  rcases min_choice ea (min eb ec) with he | he
  · by_cases hn : a' < 0
    · rw [he]; exact Or.inl (a3 hn)
    · have : ea = 1 := a4 (not_lt.1 hn)
      have hb1 : eb = 1 := le_antisymm b1 (by have := he ▸ le_trans (min_le_right ea (min eb ec)) (min_le_left _ _); linarith)
      have hc1 : ec = 1 := le_antisymm c1 (by have := he ▸ le_trans (min_le_right ea (min eb ec)) (min_le_right _ _); linarith)
      rw [he, this]
      rcases h with h | h | h
      · exact absurd h hn
      · right; left; rw [← hb1]; exact b3 h
      · right; right; rw [← hc1]; exact c3 h
  · rw [he]
    rcases min_choice eb ec with he' | he'
    · rw [he'] at he ⊢
      by_cases hn : b' < 0
      · exact Or.inr (Or.inl (b3 hn))
      · have hb1 : eb = 1 := b4 (not_lt.1 hn)
        have ha1 : ea = 1 := le_antisymm a1 (by have := min_le_left ea eb; rw [he, hb1] at this; exact this)
        have hc1 : ec = 1 := le_antisymm c1 (by have := min_le_right eb ec; rw [he', hb1] at this; exact this)
        rw [hb1]
        rcases h with h | h | h
        · left; rw [← ha1]; exact a3 h
        · exact absurd h hn
        · right; right; rw [← hc1]; exact c3 h
    · rw [he'] at he ⊢
      by_cases hn : c' < 0
      · exact Or.inr (Or.inr (c3 hn))
      · have hc1 : ec = 1 := c4 (not_lt.1 hn)
        have ha1 : ea = 1 := le_antisymm a1 (by have := min_le_left ea ec; rw [he, hc1] at this; exact this)
        have hb1 : eb = 1 := le_antisymm b1 (by have := min_le_left eb ec; rw [he', hc1] at this; exact this)
        rw [hc1]
        rcases h with h | h | h
        · left; rw [← ha1]; exact a3 h
        · right; left; rw [← hb1]; exact b3 h
        · exact absurd h hn

/-- From a point of the triangle to a point that is not in it one crosses a side. -/
lemma crosses_side {t : Tri2 K} {p q : K × K} (hp : InTri2 t p) (hq : ¬ InTri2 t q) : ∃ r, OnSide t r ∧ OnSegment p q r := by
  by_cases hflat : (t.2.1.1 - t.1.1) * (t.2.2.2 - t.1.2) - (t.2.1.2 - t.1.2) * (t.2.2.1 - t.1.1) = 0
  · exact ⟨p, flat_side hflat hp, 0, le_rfl, zero_le_one, by simp⟩
  · obtain ⟨a, b, c, ha, hb, hc, hsum, hp⟩ := hp
    -- weights of q
    obtain ⟨b', c', hb', hc'⟩ : ∃ b' c', q.1 - t.1.1 = b' * (t.2.1.1 - t.1.1) + c' * (t.2.2.1 - t.1.1) ∧
        q.2 - t.1.2 = b' * (t.2.1.2 - t.1.2) + c' * (t.2.2.2 - t.1.2) := by
      refine ⟨((q.1 - t.1.1) * (t.2.2.2 - t.1.2) - (q.2 - t.1.2) * (t.2.2.1 - t.1.1)) / ((t.2.1.1 - t.1.1) * (t.2.2.2 - t.1.2) - (t.2.1.2 - t.1.2) * (t.2.2.1 - t.1.1)),
        ((t.2.1.1 - t.1.1) * (q.2 - t.1.2) - (t.2.1.2 - t.1.2) * (q.1 - t.1.1)) / ((t.2.1.1 - t.1.1) * (t.2.2.2 - t.1.2) - (t.2.1.2 - t.1.2) * (t.2.2.1 - t.1.1)), ?_, ?_⟩
      · rw [div_mul_eq_mul_div, div_mul_eq_mul_div, ← add_div, eq_div_iff hflat]; ring
      · rw [div_mul_eq_mul_div, div_mul_eq_mul_div, ← add_div, eq_div_iff hflat]; ring
    have hneg : 1 - b' - c' < 0 ∨ b' < 0 ∨ c' < 0 := by
      by_contra hcon
      push Not at hcon
      refine hq ⟨1 - b' - c', b', c', hcon.1, hcon.2.1, hcon.2.2, by ring, ?_⟩
      ext <;> dsimp only <;> linarith
    obtain ⟨s, s0, s1, n1, n2, n3, hz⟩ := weights_exit ha hb hc hneg
    refine ⟨(p.1 + s * (q.1 - p.1), p.2 + s * (q.2 - p.2)), side_of_zero n1 n2 n3 (by linear_combination (1 - s) * hsum) ?_ hz, s, s0, s1, rfl⟩
    rw [hp]
    ext <;> dsimp only
    · linear_combination s * hb'
    · linear_combination s * hc'

lemma inPixel_convex {size : K} {i j : ℤ} {p q r : K × K} (hp : InPixel size i j p) (hq : InPixel size i j q) (hr : OnSegment p q r) :
    InPixel size i j r := by
  obtain ⟨t, t0, t1, rfl⟩ := hr
  have between : ∀ u w lo hi : K, lo ≤ u → u ≤ hi → lo ≤ w → w ≤ hi → lo ≤ u + t * (w - u) ∧ u + t * (w - u) ≤ hi := by
    intro u w lo hi h1 h2 h3 h4
    have e : u + t * (w - u) = (1 - t) * u + t * w := by ring
    rw [e]
    have a1 := mul_le_mul_of_nonneg_left h1 (sub_nonneg.2 t1)
    have a2 := mul_le_mul_of_nonneg_left h2 (sub_nonneg.2 t1)
    have a3 := mul_le_mul_of_nonneg_left h3 t0
    have a4 := mul_le_mul_of_nonneg_left h4 t0
    constructor <;> linarith
  exact ⟨between _ _ _ _ hp.1.1 hp.1.2 hq.1.1 hq.1.2, between _ _ _ _ hp.2.1 hp.2.2 hq.2.1 hq.2.2⟩

lemma inTri2_convex {t : Tri2 K} {p q r : K × K} (hp : InTri2 t p) (hq : InTri2 t q) (hr : OnSegment p q r) : InTri2 t r := by
  obtain ⟨s, s0, s1, rfl⟩ := hr
  obtain ⟨a, b, c, ha, hb, hc, hsum, rfl⟩ := hp
  obtain ⟨a', b', c', ha', hb', hc', hsum', rfl⟩ := hq
  have h1s : 0 ≤ 1 - s := by linarith
  refine ⟨(1 - s) * a + s * a', (1 - s) * b + s * b', (1 - s) * c + s * c', by positivity, by positivity, by positivity,
    by linear_combination (1 - s) * hsum + s * hsum', ?_⟩
  ext <;> dsimp only <;> ring

/-- A pixel between two pixels of its row that meet the triangle meets it. -/
lemma row_convex {size : K} (hs : 0 < size) {t : Tri2 K} {i₁ i i₂ j : ℤ} (h1 : i₁ < i) (h2 : i < i₂) (m1 : TriMeetsPixel size t i₁ j)
    (m2 : TriMeetsPixel size t i₂ j) : TriMeetsPixel size t i j := by
  obtain ⟨p, hp, px, py⟩ := m1
  obtain ⟨q, hq, qx, qy⟩ := m2
  have hp1 : p.1 ≤ i * size := by
    have : ((i₁ : K) + 1) ≤ i := by exact_mod_cast h1
    exact px.2.trans (mul_le_mul_of_nonneg_right this hs.le)
  have hq1 : (i + 1) * size ≤ q.1 := by
    have : ((i : K) + 1) ≤ i₂ := by exact_mod_cast h2
    exact (mul_le_mul_of_nonneg_right this hs.le).trans qx.1
  have hlt : p.1 < q.1 := by nlinarith
  have hd : 0 < q.1 - p.1 := by linarith
  have hr : OnSegment p q (p.1 + ((i * size - p.1) / (q.1 - p.1)) * (q.1 - p.1), p.2 + ((i * size - p.1) / (q.1 - p.1)) * (q.2 - p.2)) :=
    ⟨(i * size - p.1) / (q.1 - p.1), div_nonneg (by linarith) hd.le, by rw [div_le_one hd]; nlinarith, rfl⟩
  refine ⟨_, inTri2_convex hp hq hr, ?_, ?_⟩
  · dsimp only
    rw [div_mul_cancel₀ _ hd.ne']
    constructor <;> nlinarith
  · have e : InPixel size i₁ j (p.1, p.2) := ⟨px, py⟩
    have hy : InPixel size i₁ j (p.1, q.2) := ⟨px, qy⟩
    obtain ⟨s, s0, s1, hs'⟩ := hr
    have := inPixel_convex e hy ⟨s, s0, s1, rfl⟩
    have e2 := (Prod.ext_iff.1 hs').2
    dsimp only at e2 ⊢
    rw [e2]
    exact this.2

/-! ## Writing in arrays -/

lemma writeCell_spec {d : ℕ} (m : Mat d) (c : Cell d) (h : Inside m.shape c) :
    ∃ m', writeCell m c = .ok m' ∧ m'.shape = m.shape ∧ ∀ x, m'.val x = true ↔ m.val x = true ∨ x = c := by
  refine ⟨_, if_pos h, rfl, fun x => ?_⟩
  show (decide (Inside m.shape x) && setCell m.val c true x) = true ↔ _
  by_cases hx : x = c
  · subst hx; simp [h, setCell]
  · rw [setCell_of_ne hx]
    simp only [Bool.and_eq_true, decide_eq_true_eq, hx, or_false, and_iff_right_iff_imp]
    exact m.supp x

/-- A loop that marks cells. -/
lemma foldlM_marks {β : Type} {d : ℕ} (step : Mat d → β → Except VzError (Mat d)) (W : β → Cell d → Prop) (S : Fin d → ℕ) (l : List β)
    (h : ∀ b ∈ l, ∀ m : Mat d, m.shape = S → ∃ m', step m b = .ok m' ∧ m'.shape = S ∧ ∀ c, m'.val c = true ↔ m.val c = true ∨ W b c) :
    ∀ m : Mat d, m.shape = S → ∃ m', l.foldlM step m = .ok m' ∧ m'.shape = S ∧ ∀ c, m'.val c = true ↔ m.val c = true ∨ ∃ b ∈ l, W b c := by
  induction l with
  | nil => exact fun m hm => ⟨m, rfl, hm, fun c => by simp⟩
  | cons b l ih =>
    intro m hm
    obtain ⟨m1, h1, s1, v1⟩ := h b (List.mem_cons_self ..) m hm
    obtain ⟨m2, h2, s2, v2⟩ := ih (fun b hb => h b (List.mem_cons_of_mem _ hb)) m1 s1
    refine ⟨m2, ?_, s2, fun c => ?_⟩
    · rw [List.foldlM_cons, h1]; exact h2
    · rw [v2, v1]
      simp only [List.mem_cons, exists_eq_or_imp]
      tauto

lemma foldl_min_spec {β : Type} (f : β → K) (l : List β) : ∀ a : K, (l.foldl (fun m b => min m (f b)) a ≤ a ∧
    ∀ b ∈ l, l.foldl (fun m b => min m (f b)) a ≤ f b) ∧
    (l.foldl (fun m b => min m (f b)) a = a ∨ ∃ b ∈ l, l.foldl (fun m b => min m (f b)) a = f b) := by
  induction l with
  | nil => exact fun a => ⟨⟨le_rfl, by simp⟩, Or.inl rfl⟩
  | cons b l ih =>
    intro a
    obtain ⟨⟨h1, h2⟩, h3⟩ := ih (min a (f b))
    rw [List.foldl_cons]
    refine ⟨⟨h1.trans (min_le_left _ _), fun c hc => ?_⟩, ?_⟩
    · rcases List.mem_cons.1 hc with rfl | hc
      · exact h1.trans (min_le_right _ _)
      · exact h2 c hc
    · rcases h3 with h3 | ⟨c, hc, h3⟩
      · rcases min_choice a (f b) with h | h
        · left; rw [h3, h]
        · right; exact ⟨b, List.mem_cons_self .., by rw [h3, h]⟩
      · exact Or.inr ⟨c, List.mem_cons_of_mem _ hc, h3⟩

lemma foldl_max_spec {β : Type} (f : β → K) (l : List β) : ∀ a : K, (a ≤ l.foldl (fun m b => max m (f b)) a ∧
    ∀ b ∈ l, f b ≤ l.foldl (fun m b => max m (f b)) a) ∧
    (l.foldl (fun m b => max m (f b)) a = a ∨ ∃ b ∈ l, l.foldl (fun m b => max m (f b)) a = f b) := by
  induction l with
  | nil => exact fun a => ⟨⟨le_rfl, by simp⟩, Or.inl rfl⟩
  | cons b l ih =>
    intro a
    obtain ⟨⟨h1, h2⟩, h3⟩ := ih (max a (f b))
    rw [List.foldl_cons]
    refine ⟨⟨le_trans (le_max_left _ _) h1, fun c hc => ?_⟩, ?_⟩
    · rcases List.mem_cons.1 hc with rfl | hc
      · exact le_trans (le_max_right _ _) h1
      · exact h2 c hc
    · rcases h3 with h3 | ⟨c, hc, h3⟩
      · rcases max_choice a (f b) with h | h
        · left; rw [h3, h]
        · right; exact ⟨b, List.mem_cons_self .., by rw [h3, h]⟩
      · exact Or.inr ⟨c, List.mem_cons_of_mem _ hc, h3⟩

/-! ## The filled pixels -/

section Filled
variable [FloorRing K]

/-- The three points are different. -/
def Proper2 (t : Tri2 K) : Prop := t.1 ≠ t.2.1 ∧ t.2.1 ≠ t.2.2 ∧ t.2.2 ≠ t.1

/-- The pixels of the sides. -/
lemma mem_triangle_pixels {t : Tri2 K} (ht : Proper2 t) {size : K} (hs : 0 < size) (c : K × K) :
    c ∈ triangle2dToPixels t size ↔ ∃ i j : ℤ, c = pixelCentre size i j ∧ ∃ p, OnSide t p ∧ InPixel size i j p := by
  unfold triangle2dToPixels
  rw [mem_pixels _ hs]
  simp only [List.mem_cons, List.not_mem_nil, or_false, exists_eq_or_imp, exists_eq_left]
  obtain ⟨h1, h2, h3⟩ := ht
  constructor
  · rintro ⟨i, j, hc, ⟨-, p, hp, hin⟩ | ⟨-, p, hp, hin⟩ | ⟨-, p, hp, hin⟩⟩
    · exact ⟨i, j, hc, p, Or.inl hp, hin⟩
    · exact ⟨i, j, hc, p, Or.inr (Or.inl hp), hin⟩
    · exact ⟨i, j, hc, p, Or.inr (Or.inr hp), hin⟩
  · rintro ⟨i, j, hc, p, hp | hp | hp, hin⟩
    · exact ⟨i, j, hc, Or.inl ⟨h1, p, hp, hin⟩⟩
    · exact ⟨i, j, hc, Or.inr (Or.inl ⟨h2, p, hp, hin⟩)⟩
    · exact ⟨i, j, hc, Or.inr (Or.inr ⟨h3, p, hp, hin⟩)⟩

/-- A pixel of a side. -/
def SidePixel (size : K) (t : Tri2 K) (i j : ℤ) : Prop := ∃ p, OnSide t p ∧ InPixel size i j p

lemma SidePixel.meets {size : K} {t : Tri2 K} {i j : ℤ} (h : SidePixel size t i j) : TriMeetsPixel size t i j := by
  obtain ⟨p, h1, h2⟩ := h
  exact ⟨p, inTri2_of_side h1, h2⟩

/-- Below and above every pixel that meets the triangle, on each axis, there is a pixel of a side. -/
lemma side_extreme {size : K} (hs : 0 < size) {t : Tri2 K} {i j : ℤ} (h : TriMeetsPixel size t i j) :
    (∃ i' j', i' ≤ i ∧ SidePixel size t i' j') ∧ (∃ i' j', i ≤ i' ∧ SidePixel size t i' j') ∧
      (∃ i' j', j' ≤ j ∧ SidePixel size t i' j') ∧ (∃ i' j', j ≤ j' ∧ SidePixel size t i' j') := by
  obtain ⟨p, ⟨a, b, c, ha, hb, hc, hsum, hp⟩, hin⟩ := h
  -- a vertex with a coordinate that is not larger (not smaller)
  have low : ∀ f : K × K → K, a * f t.1 + b * f t.2.1 + c * f t.2.2 = f p → ∃ v, (v = t.1 ∨ v = t.2.1 ∨ v = t.2.2) ∧ f v ≤ f p := by
    intro f hf
    by_contra hcon
    push Not at hcon
    have h1 := hcon t.1 (Or.inl rfl)
    have h2 := hcon t.2.1 (Or.inr (Or.inl rfl))
    have h3 := hcon t.2.2 (Or.inr (Or.inr rfl))
    have e : a * f p + b * f p + c * f p = f p := by rw [← add_mul, ← add_mul, hsum, one_mul]
    have k1 := mul_le_mul_of_nonneg_left h1.le ha
    have k2 := mul_le_mul_of_nonneg_left h2.le hb
    have k3 := mul_le_mul_of_nonneg_left h3.le hc
    rcases lt_or_eq_of_le ha with h | h
    · have := mul_lt_mul_of_pos_left h1 h; linarith
    · rcases lt_or_eq_of_le hb with h' | h'
      · have := mul_lt_mul_of_pos_left h2 h'; linarith
      · have : c = 1 := by linarith
        rw [this, ← h, ← h'] at hf
        linarith
  have side : ∀ v, (v = t.1 ∨ v = t.2.1 ∨ v = t.2.2) → OnSide t v := by
    rintro v (rfl | rfl | rfl)
    · exact Or.inl (onSegment_left _ _)
    · exact Or.inr (Or.inl (onSegment_left _ _))
    · exact Or.inr (Or.inr (onSegment_left _ _))
  have fl : ∀ x : K, (⌊x / size⌋ : K) * size ≤ x ∧ x ≤ ((⌊x / size⌋ : K) + 1) * size := by
    intro x
    constructor
    · rw [← le_div_iff₀ hs]; exact Int.floor_le _
    · rw [← div_le_iff₀ hs]; exact (Int.lt_floor_add_one _).le
  have cl : ∀ x : K, ((⌈x / size⌉ - 1 : ℤ) : K) * size ≤ x ∧ x ≤ (((⌈x / size⌉ - 1 : ℤ) : K) + 1) * size := by
    intro x
    push_cast
    constructor
    · rw [← le_div_iff₀ hs]; have := Int.ceil_lt_add_one (x / size); linarith
    · rw [← div_le_iff₀ hs]; have := Int.le_ceil (x / size); linarith
  have e1 : p.1 = a * t.1.1 + b * t.2.1.1 + c * t.2.2.1 := by rw [hp]
  have e2 : p.2 = a * t.1.2 + b * t.2.1.2 + c * t.2.2.2 := by rw [hp]
  refine ⟨?_, ?_, ?_, ?_⟩
  · obtain ⟨v, hv, hle⟩ := low (fun q => q.1) e1.symm
    exact ⟨⌈v.1 / size⌉ - 1, ⌊v.2 / size⌋, range_lo hs hin.1.2 hle, v, side v hv, cl v.1, fl v.2⟩
  · obtain ⟨v, hv, hle⟩ := low (fun q => -q.1) (by rw [e1]; ring)
    exact ⟨⌊v.1 / size⌋, ⌊v.2 / size⌋, range_hi hs hin.1.1 (neg_le_neg_iff.1 hle), v, side v hv, fl v.1, fl v.2⟩
  · obtain ⟨v, hv, hle⟩ := low (fun q => q.2) e2.symm
    exact ⟨⌊v.1 / size⌋, ⌈v.2 / size⌉ - 1, range_lo hs hin.2.2 hle, v, side v hv, fl v.1, cl v.2⟩
  · obtain ⟨v, hv, hle⟩ := low (fun q => -q.2) (by rw [e2]; ring)
    exact ⟨⌊v.1 / size⌋, ⌊v.2 / size⌋, range_hi hs hin.2.1 (neg_le_neg_iff.1 hle), v, side v hv, fl v.1, fl v.2⟩

/-- The extreme pixels of a triangle. -/
lemma extremes {t : Tri2 K} (ht : Proper2 t) {size : K} (hs : 0 < size) :
    ∃ i0 j0 i1 j1 : ℤ, minPixelCenter (triangle2dToPixels t size) = some (pixelCentre size i0 j0) ∧
      maxPixelCenter (triangle2dToPixels t size) = some (pixelCentre size i1 j1) ∧ i0 ≤ i1 ∧ j0 ≤ j1 ∧
      ∀ i j, TriMeetsPixel size t i j → (i0 ≤ i ∧ i ≤ i1) ∧ (j0 ≤ j ∧ j ≤ j1) := by
  have hmem := mem_triangle_pixels ht hs
  have hne : ∃ i j, SidePixel size t i j := by
    have : TriMeetsPixel size t ⌊t.1.1 / size⌋ ⌊t.1.2 / size⌋ := by
      refine ⟨t.1, inTri2_of_side (Or.inl (onSegment_left _ _)), ⟨?_, ?_⟩, ⟨?_, ?_⟩⟩
      · rw [← le_div_iff₀ hs]; exact Int.floor_le _
      · rw [← div_le_iff₀ hs]; exact (Int.lt_floor_add_one _).le
      · rw [← le_div_iff₀ hs]; exact Int.floor_le _
      · rw [← div_le_iff₀ hs]; exact (Int.lt_floor_add_one _).le
    obtain ⟨⟨i, j, -, h⟩, -⟩ := side_extreme hs this
    exact ⟨i, j, h⟩
  generalize hl : triangle2dToPixels t size = l at hmem ⊢
  rcases l with _ | ⟨p, ps⟩
  · obtain ⟨i, j, h⟩ := hne
    exact absurd ((hmem _).2 ⟨i, j, rfl, h⟩) (by simp)
  · have conv : ∀ k : ℤ, ∀ l : ℤ, (k + 1 / 2) * size ≤ ((l : K) + 1 / 2) * size → k ≤ l := by
      intro k l h
      have := le_of_mul_le_mul_right h hs
      have : (k : K) ≤ l := by linarith
      exact_mod_cast this
    -- the four extreme coordinates
    obtain ⟨⟨m1, m2⟩, m3⟩ := foldl_min_spec (fun q : K × K => q.1) ps p.1
    obtain ⟨⟨n1, n2⟩, n3⟩ := foldl_min_spec (fun q : K × K => q.2) ps p.2
    obtain ⟨⟨u1, u2⟩, u3⟩ := foldl_max_spec (fun q : K × K => q.1) ps p.1
    obtain ⟨⟨w1, w2⟩, w3⟩ := foldl_max_spec (fun q : K × K => q.2) ps p.2
    have pick : ∀ (f : K × K → K) (v : K), (v = f p ∨ ∃ b ∈ ps, v = f b) → ∃ q ∈ p :: ps, v = f q := by
      rintro f v (h | ⟨b, hb, h⟩)
      · exact ⟨p, List.mem_cons_self .., h⟩
      · exact ⟨b, List.mem_cons_of_mem _ hb, h⟩
    obtain ⟨q1, hq1, e1⟩ := pick (fun q => q.1) _ m3
    obtain ⟨q2, hq2, e2⟩ := pick (fun q => q.2) _ n3
    obtain ⟨q3, hq3, e3⟩ := pick (fun q => q.1) _ u3
    obtain ⟨q4, hq4, e4⟩ := pick (fun q => q.2) _ w3
    obtain ⟨i0, _, rfl, hq1s⟩ := (hmem q1).1 hq1
    obtain ⟨_, j0, rfl, hq2s⟩ := (hmem q2).1 hq2
    obtain ⟨i1, _, rfl, hq3s⟩ := (hmem q3).1 hq3
    obtain ⟨_, j1, rfl, hq4s⟩ := (hmem q4).1 hq4
    have all : ∀ i j, SidePixel size t i j → (i0 ≤ i ∧ i ≤ i1) ∧ (j0 ≤ j ∧ j ≤ j1) := by
      intro i j h
      have hm := (hmem _).2 ⟨i, j, rfl, h⟩
      have b1 : ps.foldl (fun m q => min m q.1) p.1 ≤ (pixelCentre size i j).1 := by
        rcases List.mem_cons.1 hm with h | h
        · rw [h]; exact m1
        · exact m2 _ h
      have b2 : ps.foldl (fun m q => min m q.2) p.2 ≤ (pixelCentre size i j).2 := by
        rcases List.mem_cons.1 hm with h | h
        · rw [h]; exact n1
        · exact n2 _ h
      have b3 : (pixelCentre size i j).1 ≤ ps.foldl (fun m q => max m q.1) p.1 := by
        rcases List.mem_cons.1 hm with h | h
        · rw [h]; exact u1
        · exact u2 _ h
      have b4 : (pixelCentre size i j).2 ≤ ps.foldl (fun m q => max m q.2) p.2 := by
        rcases List.mem_cons.1 hm with h | h
        · rw [h]; exact w1
        · exact w2 _ h
      rw [e1] at b1
      rw [e2] at b2
      rw [e3] at b3
      rw [e4] at b4
      exact ⟨⟨conv _ _ b1, conv _ _ b3⟩, ⟨conv _ _ b2, conv _ _ b4⟩⟩
    refine ⟨i0, j0, i1, j1, ?_, ?_, ?_, ?_, ?_⟩
    · exact congrArg some (Prod.ext e1 e2)
    · exact congrArg some (Prod.ext e3 e4)
    · exact (all _ _ hq3s).1.1
    · exact (all _ _ hq4s).2.1
    · intro i j h
      obtain ⟨⟨a1, a2, a3, a4⟩, ⟨b1, b2, b3, b4⟩, ⟨c1, c2, c3, c4⟩, ⟨d1, d2, d3, d4⟩⟩ := side_extreme hs h
      have := all _ _ a4
      have := all _ _ b4
      have := all _ _ c4
      have := all _ _ d4
      omega

/-- The array with the pixels of the sides, without its border. -/
noncomputable def sideMat (size : K) (t : Tri2 K) (i0 j0 i1 j1 : ℤ) : Mat 2 :=
  mkMat ![(i1 - i0 + 1).toNat, (j1 - j0 + 1).toNat] fun c => @decide (SidePixel size t (i0 + c 0) (j0 + c 1)) (Classical.dec _)

lemma inside2 (n m : ℕ) (c : Cell 2) : Inside ![n, m] c ↔ (0 ≤ c 0 ∧ c 0 < n) ∧ (0 ≤ c 1 ∧ c 1 < m) := by
  unfold Inside
  constructor
  · exact fun h => ⟨by simpa using h 0, by simpa using h 1⟩
  · rintro ⟨h1, h2⟩ i
    fin_cases i
    · simpa using h1
    · simpa using h2

lemma sideMat_val {size : K} {t : Tri2 K} {i0 j0 i1 j1 : ℤ} (hall : ∀ i j, TriMeetsPixel size t i j → (i0 ≤ i ∧ i ≤ i1) ∧ (j0 ≤ j ∧ j ≤ j1))
    (c : Cell 2) : (sideMat size t i0 j0 i1 j1).val c = true ↔ SidePixel size t (i0 + c 0) (j0 + c 1) := by
  unfold sideMat
  rw [mkMat_val, @decide_eq_true_iff _ (Classical.dec _), inside2]
  constructor
  · exact fun h => h.2
  · intro h
    have := hall _ _ h.meets
    exact ⟨by omega, h⟩

/-- The cells connected with the outside are those of the pixels that do not meet the triangle. -/
lemma outer_sideMat {size : K} (hs : 0 < size) {t : Tri2 K} {i0 j0 i1 j1 : ℤ}
    (hall : ∀ i j, TriMeetsPixel size t i j → (i0 ≤ i ∧ i ≤ i1) ∧ (j0 ≤ j ∧ j ≤ j1)) (c : Cell 2) :
    Outer (sideMat size t i0 j0 i1 j1) c ↔ ¬ TriMeetsPixel size t (i0 + c 0) (j0 + c 1) := by
  constructor
  · intro h
    induction h with
    | outside h =>
      intro hm
      apply h
      have := hall _ _ hm
      show Inside ![(i1 - i0 + 1).toNat, (j1 - j0 + 1).toNat] _
      rw [inside2]
      omega
    | @step a b ha hab hb ih =>
      rintro ⟨p, hp, hin⟩
      -- a point of the common side
      obtain ⟨q, hqa, hqb⟩ : ∃ q : K × K, InPixel size (i0 + a 0) (j0 + a 1) q ∧ InPixel size (i0 + b 0) (j0 + b 1) q := by
        obtain ⟨k, h1, h2⟩ := hab
        have e0 : ∀ z : ℤ, (z : K) * size ≤ z * size ∧ (z : K) * size ≤ (z + 1) * size := fun z => ⟨le_rfl, by nlinarith⟩
        have e1 : ∀ z : ℤ, (z : K) * size ≤ (z + 1) * size ∧ ((z : K) + 1) * size ≤ (z + 1) * size := fun z => ⟨by nlinarith, le_rfl⟩
        have step : ∀ x y o : ℤ, (y = x + 1 ∨ y = x - 1) → ∃ r : K, (((o + x : ℤ) : K) * size ≤ r ∧ r ≤ (((o + x : ℤ) : K) + 1) * size) ∧
            (((o + y : ℤ) : K) * size ≤ r ∧ r ≤ (((o + y : ℤ) : K) + 1) * size) := by
          rintro x y o (rfl | rfl)
          · refine ⟨(((o + x : ℤ) : K) + 1) * size, e1 _, ?_⟩
            have : ((o + x : ℤ) : K) + 1 = ((o + (x + 1) : ℤ) : K) := by push_cast; ring
            rw [this]; exact e0 _
          · refine ⟨((o + x : ℤ) : K) * size, e0 _, ?_⟩
            have : ((o + x : ℤ) : K) = ((o + (x - 1) : ℤ) : K) + 1 := by push_cast; ring
            rw [this]; exact e1 _
        have hk : k = 0 ∨ k = 1 := by fin_cases k <;> simp
        rcases hk with rfl | rfl
        · obtain ⟨r, hr1, hr2⟩ := step (a 0) (b 0) i0 h1
          have := h2 1 (by decide)
          exact ⟨(r, ((j0 + a 1 : ℤ) : K) * size), ⟨hr1, e0 _⟩, ⟨hr2, by rw [this]; exact e0 _⟩⟩
        · obtain ⟨r, hr1, hr2⟩ := step (a 1) (b 1) j0 h1
          have := h2 0 (by decide)
          exact ⟨(((i0 + a 0 : ℤ) : K) * size, r), ⟨e0 _, hr1⟩, ⟨by rw [this]; exact e0 _, hr2⟩⟩
      obtain ⟨r, hr, hseg⟩ := crosses_side hp fun hq => ih ⟨q, hq, hqa⟩
      have : SidePixel size t (i0 + b 0) (j0 + b 1) := ⟨r, hr, inPixel_convex hin hqb hseg⟩
      rw [← sideMat_val hall, hb] at this
      cases this
  · intro h
    have unmarked : ∀ c : Cell 2, ¬ TriMeetsPixel size t (i0 + c 0) (j0 + c 1) → (sideMat size t i0 j0 i1 j1).val c = false := by
      intro c hc
      rw [← Bool.not_eq_true, sideMat_val hall]
      exact fun h => hc h.meets
    -- to the left or to the right nothing meets the triangle
    by_cases hleft : ∃ i, i < i0 + c 0 ∧ TriMeetsPixel size t i (j0 + c 1)
    · obtain ⟨i, hi, hm⟩ := hleft
      have hright : ∀ i', i0 + c 0 ≤ i' → ¬ TriMeetsPixel size t i' (j0 + c 1) := by
        intro i' hi' hm'
        rcases eq_or_lt_of_le hi' with h' | h'
        · rw [← h'] at hm'; exact h hm'
        · exact h (row_convex hs hi h' hm hm')
      have go : ∀ n : ℕ, ∀ x : ℤ, c 0 ≤ x → i1 - i0 + 1 - x ≤ n → Outer (sideMat size t i0 j0 i1 j1) ![x, c 1] := by
        intro n
        induction n with
        | zero =>
          intro x hx hn
          refine .outside ?_
          show ¬ Inside ![(i1 - i0 + 1).toNat, (j1 - j0 + 1).toNat] _
          rw [inside2]
          simp only [Matrix.cons_val_zero]
          omega
        | succ n ih =>
          intro x hx hn
          refine .step (ih (x + 1) (by omega) (by push_cast at hn; omega)) ⟨0, Or.inr (by simp), fun j hj => ?_⟩ (unmarked _ ?_)
          · fin_cases j
            · exact absurd rfl hj
            · rfl
          · simp only [Matrix.cons_val_zero, Matrix.cons_val_one]
            exact hright _ (by omega)
      have := go (i1 - i0 + 1 - c 0).toNat (c 0) le_rfl (by omega)
      have e : c = ![c 0, c 1] := by ext k; fin_cases k <;> rfl
      rw [e]; exact this
    · push Not at hleft
      have go : ∀ n : ℕ, ∀ x : ℤ, x ≤ c 0 → x < n → Outer (sideMat size t i0 j0 i1 j1) ![x, c 1] := by
        intro n
        induction n with
        | zero =>
          intro x hx hn
          refine .outside ?_
          show ¬ Inside ![(i1 - i0 + 1).toNat, (j1 - j0 + 1).toNat] _
          rw [inside2]
          simp only [Matrix.cons_val_zero]
          push_cast at hn
          omega
        | succ n ih =>
          intro x hx hn
          refine .step (ih (x - 1) (by omega) (by push_cast at hn; omega)) ⟨0, Or.inl (by simp), fun j hj => ?_⟩ (unmarked _ ?_)
          · fin_cases j
            · exact absurd rfl hj
            · rfl
          · simp only [Matrix.cons_val_zero, Matrix.cons_val_one]
            rcases eq_or_lt_of_le hx with h' | h'
            · rw [h']; exact h
            · exact hleft _ (by omega)
      have := go (c 0 + 1).toNat (c 0) le_rfl (by omega)
      have e : c = ![c 0, c 1] := by ext k; fin_cases k <;> rfl
      rw [e]; exact this

/-- **The filled pixels are exactly those that meet the triangle.** -/
theorem filled_spec {t : Tri2 K} (ht : Proper2 t) {size : K} (hs : 0 < size) {i0 j0 i1 j1 : ℤ} (hi : i0 ≤ i1) (hj : j0 ≤ j1)
    (hall : ∀ i j, TriMeetsPixel size t i j → (i0 ≤ i ∧ i ≤ i1) ∧ (j0 ≤ j ∧ j ≤ j1)) :
    ∃ fuel pm, (∀ fuel', fuel ≤ fuel' → filledPixelMatrix fuel' (triangle2dToPixels t size) size (i1 - i0 + 1, j1 - j0 + 1)
        (pixelCentre size i0 j0) = .ok pm) ∧
      ∀ x y : ℤ, 0 ≤ x → x ≤ i1 - i0 → 0 ≤ y → y ≤ j1 - j0 →
        (pm.val ![x + 1, y + 1] = true ↔ TriMeetsPixel size t (i0 + x) (j0 + y)) := by
  have hmem := mem_triangle_pixels ht hs
  set M := sideMat size t i0 j0 i1 j1 with hM
  have hshape : (expandMat M).shape = ![(i1 - i0 + 1 + 2).toNat, (j1 - j0 + 1 + 2).toNat] := by
    ext k
    fin_cases k
    · show (i1 - i0 + 1).toNat + 2 = (i1 - i0 + 1 + 2).toNat
      omega
    · show (j1 - j0 + 1).toNat + 2 = (j1 - j0 + 1 + 2).toNat
      omega
  -- the marked pixels
  obtain ⟨m, hm, ms, mv⟩ := foldlM_marks (writePixel size (pixelCentre size i0 j0))
    (fun p c => ∃ i j : ℤ, p = pixelCentre size i j ∧ c = ![i - i0 + 1, j - j0 + 1]) ![(i1 - i0 + 1 + 2).toNat, (j1 - j0 + 1 + 2).toNat] (triangle2dToPixels t size) (by
      intro p hp m hm
      obtain ⟨i, j, rfl, hside⟩ := (hmem p).1 hp
      have hb := hall _ _ (SidePixel.meets hside)
      have e : ∀ k l : ℤ, cInt ((((k : K) + 1 / 2) * size - ((l : K) + 1 / 2) * size) / size) = k - l := by
        intro k l
        have : (((k : K) + 1 / 2) * size - ((l : K) + 1 / 2) * size) / size = ((k - l : ℤ) : K) := by
          push_cast; field_simp; ring
        rw [this, cInt_intCast]
      have hin : Inside m.shape ![i - i0 + 1, j - j0 + 1] := by
        rw [hm, inside2]
        simp only [Matrix.cons_val_zero, Matrix.cons_val_one]
        omega
      obtain ⟨m', h1, h2, h3⟩ := writeCell_spec m _ hin
      refine ⟨m', ?_, h2.trans hm, fun c => ?_⟩
      · unfold writePixel pixelCentre
        dsimp only
        rw [e, e]; exact h1
      · rw [h3]
        constructor
        · rintro (h | h)
          · exact Or.inl h
          · exact Or.inr ⟨i, j, rfl, h⟩
        · rintro (h | ⟨i', j', h, hc⟩)
          · exact Or.inl h
          · obtain ⟨rfl, rfl⟩ := pixelCentre_inj hs h
            exact Or.inr hc)
    (mkMat ![(i1 - i0 + 1 + 2).toNat, (j1 - j0 + 1 + 2).toNat] fun _ => false) rfl
  have hmM : m = expandMat M := by
    refine Mat.ext (ms.trans hshape.symm) (funext fun c => ?_)
    rw [Bool.eq_iff_iff, mv, mkMat_val, expand_val, hM, sideMat_val hall]
    simp only [Bool.false_eq_true, and_false, false_or]
    constructor
    · rintro ⟨p, hp, i, j, rfl, rfl⟩
      obtain ⟨i', j', h, hside⟩ := (hmem _).1 hp
      obtain ⟨rfl, rfl⟩ := pixelCentre_inj hs h
      simp only [Matrix.cons_val_zero, Matrix.cons_val_one]
      rw [show i0 + (i - i0 + 1 - 1) = i by ring, show j0 + (j - j0 + 1 - 1) = j by ring]
      exact hside
    · intro hside
      refine ⟨_, (hmem _).2 ⟨_, _, rfl, hside⟩, _, _, rfl, ?_⟩
      ext k
      fin_cases k
      · show c 0 = i0 + (c 0 - 1) - i0 + 1
        ring
      · show c 1 = j0 + (c 1 - 1) - j0 + 1
        ring
  have hstart : Inside (expandMat M).shape fun _ => 0 := by
    rw [hshape, inside2]
    omega
  obtain ⟨fuel, outer, hf, hfs, hfv⟩ := C39_flood_fill_2d (expandMat M) (fun _ => 0) true hstart
  refine ⟨fuel, addUnreached m outer, fun fuel' hle => ?_, fun x y hx hx' hy hy' => ?_⟩
  · unfold filledPixelMatrix
    rw [hm]
    dsimp only
    rw [hmM, hf fuel' hle]
  · have hin : Inside (expandMat M).shape ![x + 1, y + 1] := by
      rw [hshape, inside2]
      simp only [Matrix.cons_val_zero, Matrix.cons_val_one]
      omega
    have hsh : (fun i => (![x + 1, y + 1] : Cell 2) i - 1) = ![x, y] := by
      ext k; fin_cases k <;> simp
    have hcon := outer_iff (by norm_num) two_axes M ![x + 1, y + 1] hin
    rw [hsh, hM, outer_sideMat hs hall, ← hM] at hcon
    simp only [Matrix.cons_val_zero, Matrix.cons_val_one] at hcon
    have hval : (expandMat M).val ![x + 1, y + 1] = true ↔ SidePixel size t (i0 + x) (j0 + y) := by
      rw [expand_val, hsh, hM, sideMat_val hall]
      rfl
    unfold addUnreached
    rw [mkMat_val, hmM, and_iff_right hin, Bool.or_eq_true, hval, Bool.not_eq_true']
    constructor
    · rintro (h | h)
      · exact h.meets
      · by_contra hnm
        rw [(hfv _).1 (hcon.2 hnm)] at h
        cases h
    · intro h
      by_cases hside : SidePixel size t (i0 + x) (j0 + y)
      · exact Or.inl hside
      · right
        rw [(hfv _).2 fun hc => hcon.1 hc h, ← Bool.not_eq_true, hval]
        exact hside

end Filled

end Voxel
end Volmdlr
