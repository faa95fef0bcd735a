import Mathlib.Analysis.Calculus.MeanValue
import Mathlib.Tactic.Linarith
import Mathlib.Tactic.Ring
import Mathlib.Tactic.LinearCombination
import Mathlib.Tactic.Positivity

/-!
# Counting zeros of piecewise polynomial functions

Mathematics only (no code of the repository): a function with continuous derivatives up to the order `p - 1`, whose derivative of order `p` is constant
on `m` consecutive intervals, has not too many zeros.  Used for the Schoenberg–Whitney theorem.
-/

namespace Volmdlr.Fit
open Set

/-- `g` is continuous on `[A, B]`, with right derivative `g'` on `[A, B)`. -/
structure RightDeriv (g g' : ℝ → ℝ) (A B : ℝ) : Prop where
  cont : ContinuousOn g (Icc A B)
  deriv : ∀ x ∈ Ico A B, HasDerivWithinAt g (g' x) (Ici x) x

lemma RightDeriv.sign {g g' : ℝ → ℝ} {A B : ℝ} (h : RightDeriv g g' A B) {a b σ : ℝ} (ha : A ≤ a) (hab : a < b) (hb : b ≤ B)
    (hs : 0 < σ * (g b - g a)) : ∃ c, a ≤ c ∧ c < b ∧ 0 < σ * g' c := by
  by_contra hn
  push Not at hn
  have := image_le_of_deriv_right_le_deriv_boundary (f := fun x => σ * g x) (f' := fun x => σ * g' x) (a := a) (b := b) (B := fun _ => σ * g a)
    (B' := fun _ => 0) ((h.cont.mono (Icc_subset_Icc ha hb)).const_smul σ)
    (fun x hx => (h.deriv x ⟨ha.trans hx.1, hx.2.trans_le hb⟩).const_mul σ) le_rfl continuousOn_const
    (fun x _ => hasDerivWithinAt_const _ _ _) (fun x hx => hn x hx.1 hx.2) (right_mem_Icc.2 hab.le)
  nlinarith

/-- `N` points, from `A` on and before `x`, at which `g` has alternating signs; `σ` has the last sign. -/
inductive Alt (g : ℝ → ℝ) (A : ℝ) : ℕ → ℝ → ℝ → Prop
  | zero {x σ : ℝ} : A ≤ x → Alt g A 0 x σ
  | step {N : ℕ} {y t x σ : ℝ} : Alt g A N y σ → y ≤ t → t < x → 0 < -σ * g t → Alt g A (N + 1) x (-σ)

lemma Alt.le {g : ℝ → ℝ} {A : ℝ} {N : ℕ} {x σ : ℝ} (h : Alt g A N x σ) : A ≤ x := by
  induction h with
  | zero h => exact h
  | step _ h1 h2 _ ih => linarith

lemma Alt.mono {g : ℝ → ℝ} {A : ℝ} {N : ℕ} {x y σ : ℝ} (h : Alt g A N x σ) (hxy : x ≤ y) : Alt g A N y σ := by
  cases h with
  | zero h => exact Alt.zero (h.trans hxy)
  | step h h1 h2 h3 => exact Alt.step h h1 (h2.trans_le hxy) h3

lemma Alt.add {g : ℝ → ℝ} {A : ℝ} {N : ℕ} {y t x σ σ' : ℝ} (h : Alt g A N y σ) (h1 : y ≤ t) (h2 : t < x) (h3 : 0 < σ' * g t) (h4 : σ' * σ < 0) :
    Alt g A (N + 1) x (-σ) := by
  refine Alt.step h h1 h2 ?_
  by_contra hn
  push Not at hn
  rcases lt_trichotomy 0 (g t) with hg | hg | hg
  · have : 0 < σ' := by by_contra hc; nlinarith
    have : σ < 0 := by by_contra hc; nlinarith
    nlinarith
  · rw [← hg] at h3; simp at h3
  · have : σ' < 0 := by by_contra hc; nlinarith
    have : 0 < σ := by by_contra hc; nlinarith
    nlinarith

/-- Rolle, with signs: the left end. -/
lemma Alt.left {g g' : ℝ → ℝ} {A B : ℝ} (hs : RightDeriv g g' A B) {e : ℕ} (he : e = 0 ∨ e = 1 ∧ g A = 0) {N : ℕ} {x σ : ℝ} (h : Alt g A N x σ)
    (hx : x ≤ B) : N = 0 ∨ ∃ t, A ≤ t ∧ t < x ∧ 0 < σ * g t ∧ Alt g' A (N - 1 + e) t σ := by
  induction h with
  | zero _ => exact Or.inl rfl
  | @step N y t x σ h h1 h2 h3 ih =>
    right
    have hA := h.le
    refine ⟨t, hA.trans h1, h2, h3, ?_⟩
    rcases ih (h1.trans (h2.le.trans hx)) with rfl | ⟨t0, k1, k2, k3, k4⟩
    · rcases he with rfl | ⟨rfl, hg⟩
      · exact Alt.zero (hA.trans h1)
      · have hlt : A < t := by
          rcases (hA.trans h1).lt_or_eq with h | h
          · exact h
          · rw [← h, hg] at h3; simp at h3
        obtain ⟨c, c1, c2, c3⟩ := hs.sign (σ := -σ) le_rfl hlt (h2.le.trans hx) (by rw [hg]; simpa using h3)
        exact Alt.step (σ := σ) (Alt.zero le_rfl) c1 c2 c3
    · obtain ⟨c, c1, c2, c3⟩ := hs.sign (σ := -σ) k1 (k2.trans_le h1) (h2.le.trans hx) (by nlinarith)
      by_cases hN : N = 0
      · subst hN
        cases h with
        | zero _ =>
          rcases he with rfl | ⟨rfl, hg⟩
          · exact Alt.zero (hA.trans h1)
          · have hlt : A < t := by linarith
            obtain ⟨c, c1, c2, c3⟩ := hs.sign (σ := -σ) le_rfl hlt (h2.le.trans hx) (by rw [hg]; simpa using h3)
            exact Alt.step (σ := σ) (Alt.zero le_rfl) c1 c2 c3
      · have := Alt.step k4 c1 c2 c3
        rwa [show N - 1 + e + 1 = N + 1 - 1 + e by omega] at this

/-- Rolle, with signs. -/
lemma Alt.rolle {g g' : ℝ → ℝ} {A B : ℝ} (hs : RightDeriv g g' A B) {eL eR : ℕ} (hL : eL = 0 ∨ eL = 1 ∧ g A = 0) (hR : eR = 0 ∨ eR = 1 ∧ g B = 0)
    {N : ℕ} {σ : ℝ} (h : Alt g A N B σ) (hN : 1 ≤ N) : ∃ σ', Alt g' A (N - 1 + eL + eR) B σ' := by
  rcases h.left hs hL le_rfl with rfl | ⟨t, t1, t2, t3, t4⟩
  · omega
  · rcases hR with rfl | ⟨rfl, hg⟩
    · exact ⟨σ, t4.mono t2.le⟩
    · obtain ⟨c, c1, c2, c3⟩ := hs.sign (σ := -σ) t1 t2 le_rfl (by rw [hg]; linarith)
      exact ⟨-σ, Alt.step t4 c1 c2 c3⟩

/-- Rolle, from zeros: `k` gaps between consecutive zeros of a function which is not null in any gap. -/
lemma alt_of_zeros {g g' : ℝ → ℝ} {A B : ℝ} (hs : RightDeriv g g' A B) (z : ℕ → ℝ) (k : ℕ) (h0 : z 0 = A) (hB : z k ≤ B) (hm : ∀ i < k, z i < z (i + 1))
    (hz : ∀ i ≤ k, g (z i) = 0) (hw : ∀ i < k, ∃ w, z i < w ∧ w < z (i + 1) ∧ g w ≠ 0) (hk : 1 ≤ k) :
    ∃ σ, σ ≠ 0 ∧ Alt g' A (k + 1) (z k) σ := by
  have hA : ∀ i ≤ k, A ≤ z i := by
    intro i
    induction i with
    | zero => intro _; exact h0.ge
    | succ i ih => intro h; exact (ih (by omega)).trans (hm i (by omega)).le
  have hB' : ∀ i ≤ k, z i ≤ B := by
    have : ∀ d, d ≤ k → z (k - d) ≤ B := by
      intro d
      induction d with
      | zero => intro _; exact hB
      | succ d ih =>
        intro h
        have := hm (k - (d + 1)) (by omega)
        rw [show k - (d + 1) + 1 = k - d by omega] at this
        exact this.le.trans (ih (by omega))
    intro i hi
    have := this (k - i) (by omega)
    rwa [show k - (k - i) = i by omega] at this
  -- the two signs of a gap
  have gap : ∀ i < k, ∃ s c d, s ≠ 0 ∧ z i ≤ c ∧ c < d ∧ d < z (i + 1) ∧ 0 < s * g' c ∧ 0 < -s * g' d := by
    intro i hi
    obtain ⟨w, w1, w2, w3⟩ := hw i hi
    have hp : 0 < g w * g w := mul_self_pos.2 w3
    obtain ⟨c, c1, c2, c3⟩ := hs.sign (σ := g w) (hA i hi.le) w1 (w2.le.trans (hB' (i + 1) hi)) (by rw [hz i hi.le]; simpa using hp)
    obtain ⟨d, d1, d2, d3⟩ := hs.sign (σ := -g w) ((hA i hi.le).trans w1.le) w2 (hB' (i + 1) hi) (by rw [hz (i + 1) hi]; simpa using hp)
    exact ⟨g w, c, d, w3, c1, c2.trans_le d1, d2, c3, d3⟩
  have key : ∀ j, 1 ≤ j → j ≤ k → ∃ σ, σ ≠ 0 ∧ Alt g' A (j + 1) (z j) σ := by
    intro j
    induction j with
    | zero => intro h; omega
    | succ j ih =>
      intro _ hj
      obtain ⟨s, c, d, s0, h1, h2, h3, h4, h5⟩ := gap j (by omega)
      by_cases hj0 : j = 0
      · subst hj0
        refine ⟨-s, neg_ne_zero.2 s0, ?_⟩
        have a : Alt g' A (0 + 1) d (- -s) := Alt.step (σ := -s) (Alt.zero (hA 0 (by omega))) h1 h2 (by simpa using h4)
        rw [neg_neg] at a
        exact Alt.step a le_rfl h3 h5
      · obtain ⟨σ, σ0, a⟩ := ih (by omega) (by omega)
        refine ⟨-σ, neg_ne_zero.2 σ0, ?_⟩
        rcases lt_or_gt_of_ne (mul_ne_zero s0 σ0) with h | h
        · exact a.add h1 (h2.trans h3) h4 h
        · exact a.add (h1.trans h2.le) h3 h5 (by nlinarith)
  exact key k hk le_rfl

/-- A function which is constant on pieces changes sign at most once for each piece. -/
lemma alt_pieces {g : ℝ → ℝ} {A B : ℝ} (pc : ℝ → ℕ) (hm : ∀ t t', A ≤ t → t ≤ t' → t' < B → pc t ≤ pc t')
    (hg : ∀ t t', A ≤ t → t ≤ t' → t' < B → pc t = pc t' → g t = g t') {N : ℕ} {x σ : ℝ} (h : Alt g A N x σ) (hx : x ≤ B) :
    N = 0 ∨ ∃ t, A ≤ t ∧ t < x ∧ 0 < σ * g t ∧ pc A + N ≤ pc t + 1 := by
  induction h with
  | zero _ => exact Or.inl rfl
  | @step N y t x σ h h1 h2 h3 ih =>
    right
    have hA := h.le
    refine ⟨t, hA.trans h1, h2, h3, ?_⟩
    rcases ih (h1.trans (h2.le.trans hx)) with rfl | ⟨t0, k1, k2, k3, k4⟩
    · have := hm A t le_rfl (hA.trans h1) (h2.trans_le hx)
      omega
    · have hle := hm t0 t k1 (k2.le.trans h1) (h2.trans_le hx)
      have hne : pc t0 ≠ pc t := by
        intro e
        rw [hg t0 t k1 (k2.le.trans h1) (h2.trans_le hx) e] at k3
        linarith
      omega

/-- The bound on the zeros.  `F q` is the derivative of order `q`; `A = z 0 < … < z k = B` are zeros of `F 0`, which is not null in any gap; the
derivatives of order less than `μL` vanish at `A`, of order less than `μR` at `B`; the derivative of order `p` is constant on each of the pieces, whose
numbers go from that of `A` to `κ`. -/
theorem zeros_bound (F : ℕ → ℝ → ℝ) (p : ℕ) (hp : 1 ≤ p) (A B : ℝ) (hs : ∀ q < p, RightDeriv (F q) (F (q + 1)) A B) (μL μR : ℕ)
    (hμL : 1 ≤ μL ∧ μL ≤ p) (hμR : 1 ≤ μR ∧ μR ≤ p) (hL : ∀ q < μL, F q A = 0) (hR : ∀ q < μR, F q B = 0)
    (z : ℕ → ℝ) (k : ℕ) (h0 : z 0 = A) (hB : z k = B) (hk : 1 ≤ k) (hm : ∀ i < k, z i < z (i + 1))
    (hz : ∀ i ≤ k, F 0 (z i) = 0) (hw : ∀ i < k, ∃ w, z i < w ∧ w < z (i + 1) ∧ F 0 w ≠ 0)
    (pc : ℝ → ℕ) (κ : ℕ) (hpm : ∀ t t', A ≤ t → t ≤ t' → t' < B → pc t ≤ pc t') (hpκ : ∀ t, A ≤ t → t < B → pc t ≤ κ)
    (hpg : ∀ t t', A ≤ t → t ≤ t' → t' < B → pc t = pc t' → F p t = F p t') :
    k + μL + μR + pc A ≤ κ + 1 + p := by
  have chain : ∀ q, 1 ≤ q → q ≤ p →
      k + 1 + min (q - 1) (μL - 1) + min (q - 1) (μR - 1) ≤ q - 1 ∨
      ∃ N σ, k + 1 + min (q - 1) (μL - 1) + min (q - 1) (μR - 1) ≤ N + (q - 1) ∧ 1 ≤ N ∧ Alt (F q) A N B σ := by
    intro q
    induction q with
    | zero => intro h; omega
    | succ q ih =>
      intro _ hq
      by_cases hq0 : q = 0
      · subst hq0
        right
        obtain ⟨σ, -, a⟩ := alt_of_zeros (hs 0 (by omega)) z k h0 hB.le hm hz hw hk
        rw [hB] at a
        exact ⟨k + 1, σ, by omega, by omega, a⟩
      · rcases ih (by omega) (by omega) with h | ⟨N, σ, h1, h2, a⟩
        · left; omega
        · obtain ⟨σ', a'⟩ := a.rolle (hs q (by omega)) (eL := if q < μL then 1 else 0) (eR := if q < μR then 1 else 0)
            (by by_cases h : q < μL
                · rw [if_pos h]; exact Or.inr ⟨rfl, hL q h⟩
                · rw [if_neg h]; exact Or.inl rfl)
            (by by_cases h : q < μR
                · rw [if_pos h]; exact Or.inr ⟨rfl, hR q h⟩
                · rw [if_neg h]; exact Or.inl rfl) h2
          by_cases hN : 1 ≤ N - 1 + (if q < μL then 1 else 0) + (if q < μR then 1 else 0)
          · right
            refine ⟨_, σ', ?_, hN, a'⟩
            split_ifs <;> omega
          · left
            split_ifs at hN <;> omega
  have hAB : A < B := by
    have : ∀ i, i ≤ k → A ≤ z i ∧ (1 ≤ i → A < z i) := by
      intro i
      induction i with
      | zero => intro _; exact ⟨h0.ge, by omega⟩
      | succ i ih => intro h; have := hm i (by omega); have := (ih (by omega)).1; exact ⟨by linarith, fun _ => by linarith⟩
    rw [← hB]; exact (this k le_rfl).2 hk
  have hpA := hpκ A le_rfl hAB
  rcases chain p hp le_rfl with h | ⟨N, σ, h1, h2, a⟩
  · omega
  · rcases alt_pieces pc hpm hpg a le_rfl with rfl | ⟨t, t1, t2, -, t4⟩
    · omega
    · have := hpκ t t1 t2
      omega

end Volmdlr.Fit
