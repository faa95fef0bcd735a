import Verif.Nurbs.DerivModel
import Verif.Nurbs.Boehm
import Verif.Nurbs.Curve
import Verif.Nurbs.Helpers
import Mathlib.Analysis.Calculus.IteratedDeriv.Lemmas
import Mathlib.Analysis.Calculus.Deriv.Mul
import Mathlib.Analysis.Calculus.Deriv.Add
import Mathlib.Analysis.Calculus.ContDiff.Operations

/-!
# C76: the derivative algorithms compute the derivatives
-/

open Finset

namespace Volmdlr
section table
variable {K : Type*} [Field K]

omit [Field K] in
theorem upd2_same (M : ℕ → ℕ → K) (a b : ℕ) (v : K) : upd2 M a b v a b = v := if_pos ⟨rfl, rfl⟩
omit [Field K] in
theorem upd2_ne (M : ℕ → ℕ → K) (a b : ℕ) (v : K) (r c : ℕ) (h : ¬ (r = a ∧ c = b)) : upd2 M a b v r c = M r c :=
  if_neg h

/-- Contents of the table `ndu`, upper triangle. -/
theorem nduInner_spec (U : ℕ → K) (span : ℕ) (u : K) (j : ℕ) (hj : j + 1 ≤ span) (M : ℕ → ℕ → K)
    (hN : ∀ c r, c ≤ j → r ≤ c → M r c = bsp U span u c (span - c + r)) 
    (hL : ∀ c r, c ≤ j → r < c → M c r = U (span + r + 1) - U (span + 1 - (c - r))) (r : ℕ) (hr : r ≤ j + 1) :
    (∀ c t, c ≤ j → t ≤ c → (nduInner U span u (j + 1) M r).1 t c = bsp U span u c (span - c + t)) ∧
    (∀ c t, c ≤ j → t < c → (nduInner U span u (j + 1) M r).1 c t = U (span + t + 1) - U (span + 1 - (c - t))) ∧
    (∀ t, t < r → (nduInner U span u (j + 1) M r).1 t (j + 1) = bsp U span u (j + 1) (span - (j + 1) + t)) ∧
    (∀ t, t < r → (nduInner U span u (j + 1) M r).1 (j + 1) t = U (span + t + 1) - U (span + 1 - (j + 1 - t))) ∧
    (nduInner U span u (j + 1) M r).2 =
      (u - U (span - (j + 1) + r)) / (U (span - (j + 1) + r + j + 1) - U (span - (j + 1) + r)) *
        bsp U span u j (span - (j + 1) + r) := by
  induction r with
  | zero =>
    refine ⟨fun c t h1 h2 => hN c t h1 h2, fun c t h1 h2 => hL c t h1 h2, fun t h => by omega, fun t h => by omega, ?_⟩
    rw [bsp_zero_of_gt U span u j (span - (j + 1) + 0) (by omega)]
    simp [nduInner]
  | succ r ih =>
    obtain ⟨h1, h2, h3, h4, h5⟩ := ih (by omega)
    have hNr := h1 j r (le_refl _) (by omega)
    rw [show span - j + r = span - (j + 1) + (r + 1) by omega] at hNr
    have hden : U (span + (r + 1)) - u + (u - U (span + 1 - (j + 1 - r))) =
        U (span - (j + 1) + r + j + 2) - U (span - (j + 1) + r + 1) := by
      rw [show span + 1 - (j + 1 - r) = span - (j + 1) + r + 1 by omega,
        show span - (j + 1) + r + j + 2 = span + (r + 1) by omega]; ring
    simp only [nduInner]
    rw [upd2_same, show j + 1 - 1 = j by omega, upd2_ne _ _ _ _ r j (by omega), hNr, h5]
    refine ⟨?_, ?_, ?_, ?_, ?_⟩
    · intro c t hc ht
      rw [upd2_ne _ _ _ _ _ _ (by omega), upd2_ne _ _ _ _ _ _ (by omega)]; exact h1 c t hc ht
    · intro c t hc ht
      rw [upd2_ne _ _ _ _ _ _ (by omega), upd2_ne _ _ _ _ _ _ (by omega)]; exact h2 c t hc ht
    · intro t ht
      rcases Nat.lt_succ_iff_lt_or_eq.1 ht with h | h
      · rw [upd2_ne _ _ _ _ _ _ (by omega), upd2_ne _ _ _ _ _ _ (by omega)]; exact h3 t h
      · subst h
        rw [upd2_same, hden, bsp, show span + (t + 1) = span - (j + 1) + t + j + 2 by omega]
        ring_nf
    · intro t ht
      rcases Nat.lt_succ_iff_lt_or_eq.1 ht with h | h
      · rw [upd2_ne _ _ _ _ _ _ (by omega), upd2_ne _ _ _ _ _ _ (by omega)]; exact h4 t h
      · subst h
        rw [upd2_ne _ _ _ _ _ _ (by omega), upd2_same]
        rw [show span + (t + 1) = span + t + 1 by omega]; ring
    · rw [hden, show span + 1 - (j + 1 - r) = span - (j + 1) + (r + 1) by omega,
        show span - (j + 1) + (r + 1) + j + 1 = span - (j + 1) + r + j + 2 by omega,
        show span - (j + 1) + r + 1 = span - (j + 1) + (r + 1) by omega]
      ring

/-- The table `ndu`: `ndu[r][c]` is the basis piece `N_{span-c+r,c}` and `ndu[c][r]` (`r < c`) the knot difference. -/
theorem nduTable_spec (U : ℕ → K) (span : ℕ) (u : K) (j : ℕ) (hj : j ≤ span) :
    (∀ c r, c ≤ j → r ≤ c → nduTable U span u j r c = bsp U span u c (span - c + r)) ∧
    (∀ c r, c ≤ j → r < c → nduTable U span u j c r = U (span + r + 1) - U (span + 1 - (c - r))) := by
  induction j with
  | zero =>
    constructor
    · intro c r hc hr
      obtain rfl : c = 0 := by omega
      obtain rfl : r = 0 := by omega
      simp [nduTable, bsp]
    · intro c r hc hr; omega
  | succ j ih =>
    obtain ⟨i1, i2⟩ := ih (by omega)
    obtain ⟨h1, h2, h3, h4, h5⟩ := nduInner_spec U span u j hj (nduTable U span u j) i1 i2 (j + 1) (le_refl _)
    simp only [nduTable]
    constructor
    · intro c r hc hr
      rcases hc.lt_or_eq with h | h
      · rw [upd2_ne _ _ _ _ _ _ (by omega)]; exact h1 c r (by omega) hr
      · subst h
        rcases hr.lt_or_eq with h | h
        · rw [upd2_ne _ _ _ _ _ _ (by omega)]; exact h3 r (by omega)
        · subst h
          rw [upd2_same, h5, bsp, bsp_zero_of_lt U span u j (span - (j + 1) + (j + 1) + 1) (by omega)]
          simp
    · intro c r hc hr
      rw [upd2_ne _ _ _ _ _ _ (by omega)]
      rcases hc.lt_or_eq with h | h
      · exact h2 c r (by omega) hr
      · subst h; exact h4 r (by omega)

/-- The coefficients of the `k`-th derivative of `N_{i,p}` in the basis functions of degree `p - k` (NURBS book, 2.10). -/
def derCoef (U : ℕ → K) (p i : ℕ) : ℕ → ℕ → K
  | 0, j => if j = 0 then 1 else 0
  | k + 1, j => (derCoef U p i k j - (if j = 0 then 0 else derCoef U p i k (j - 1))) / (U (i + p + j - k) - U (i + j))

theorem derCoef_zero_of_gt (U : ℕ → K) (p i k j : ℕ) (h : k < j) : derCoef U p i k j = 0 := by
  induction k generalizing j with
  | zero => simp [derCoef]; omega
  | succ k ih =>
    rw [derCoef, ih j (by omega), if_neg (by omega), ih (j - 1) (by omega)]; simp

/-- The derivative of order `k` (without the factor) as computed by the code for the function index `r`. -/
def derSum (U : ℕ → K) (κ : ℕ) (u : K) (p i k : ℕ) : K :=
  ∑ j ∈ range (k + 1), derCoef U p i k j * bsp U κ u (p - k) (i + j)

theorem derInner_spec (ndu : ℕ → ℕ → K) (s1 s2 pk k r j1 : ℕ) (hs : s1 ≠ s2) (a : ℕ → ℕ → K) (d : K) (m : ℕ) :
    (∀ x, (derInner ndu s1 s2 pk k r j1 a d m).1 s1 x = a s1 x) ∧
    (∀ x, (x < j1 ∨ j1 + m ≤ x) → (derInner ndu s1 s2 pk k r j1 a d m).1 s2 x = a s2 x) ∧
    (∀ x, j1 ≤ x → x < j1 + m →
      (derInner ndu s1 s2 pk k r j1 a d m).1 s2 x = (a s1 x - a s1 (x - 1)) / ndu (pk + 1) (r + x - k)) ∧
    (derInner ndu s1 s2 pk k r j1 a d m).2 = d + ∑ t ∈ range m,
      (a s1 (j1 + t) - a s1 (j1 + t - 1)) / ndu (pk + 1) (r + (j1 + t) - k) * ndu (r + (j1 + t) - k) pk := by
  induction m with
  | zero => refine ⟨fun _ => rfl, fun _ _ => rfl, fun x h1 h2 => by omega, by simp [derInner]⟩
  | succ m ih =>
    obtain ⟨h1, h2, h3, h4⟩ := ih
    simp only [derInner]
    refine ⟨?_, ?_, ?_, ?_⟩
    · intro x; rw [upd2_ne _ _ _ _ _ _ (by omega)]; exact h1 x
    · intro x hx; rw [upd2_ne _ _ _ _ _ _ (by omega)]; exact h2 x (by omega)
    · intro x hx1 hx2
      by_cases hx : x = j1 + m
      · subst hx; rw [upd2_same, h1, h1]
      · rw [upd2_ne _ _ _ _ _ _ (by omega)]; exact h3 x hx1 (by omega)
    · rw [upd2_same, h4, h1, h1, sum_range_succ, add_assoc]

/-- Rows of `a` after the orders `1, …, k`: row `s1` holds the coefficients of order `k` for the basis functions
that do not vanish. -/
structure DerInv (U : ℕ → K) (p i r k : ℕ) (st : DerState K) : Prop where
  ne : st.s1 ≠ st.s2
  row : ∀ j, k ≤ r + j → j ≤ k → r + j ≤ p → st.a st.s1 j = derCoef U p i k j

theorem derStep_spec (U : ℕ → K) (κ : ℕ) (u : K) (p : ℕ) (hp : p ≤ κ) (r : ℕ) (hr : r ≤ p) (k : ℕ) (hk : k + 1 ≤ p)
    (st : DerState K) (h : DerInv U p (κ - p + r) r k st) :
    DerInv U p (κ - p + r) r (k + 1) (derStep p (nduTable U κ u p) r st (k + 1)) ∧
    (derStep p (nduTable U κ u p) r st (k + 1)).ders = upd2 st.ders (k + 1) r (derSum U κ u p (κ - p + r) (k + 1)) := by
  obtain ⟨hT1, hT2⟩ := nduTable_spec U κ u p hp
  generalize nduTable U κ u p = ndu at hT1 hT2 ⊢
  obtain ⟨hne, hrow⟩ := h
  generalize hi : κ - p + r = i at hrow ⊢
  -- the two kinds of entries used
  have hlow : ∀ j, k + 1 ≤ r + j → r + j ≤ p → ndu (p - (k + 1) + 1) (r + j - (k + 1)) = U (i + p + j - k) - U (i + j) := by
    intro j h1 h2
    rw [hT2 _ _ (by omega) (by omega)]
    congr 2 <;> omega
  have hup : ∀ j, k + 1 ≤ r + j → r + j ≤ p → ndu (r + j - (k + 1)) (p - (k + 1)) = bsp U κ u (p - (k + 1)) (i + j) := by
    intro j h1 h2
    rw [hT1 _ _ (by omega) (by omega)]
    congr 1; omega
  -- the coefficients
  have hmid : ∀ j, 1 ≤ j → j ≤ k → k + 1 ≤ r + j → r + j ≤ p →
      (st.a st.s1 j - st.a st.s1 (j - 1)) / ndu (p - (k + 1) + 1) (r + j - (k + 1)) = derCoef U p i (k + 1) j := by
    intro j h1 h2 h3 h4
    rw [hlow j h3 h4, hrow j (by omega) h2 h4, hrow (j - 1) (by omega) (by omega) (by omega), derCoef, if_neg (by omega)]
  unfold derStep
  dsimp only
  set t0 : (ℕ → ℕ → K) × K :=
    (if k + 1 ≤ r then
      (upd2 st.a st.s2 0 (st.a st.s1 0 / ndu (p - (k + 1) + 1) (r - (k + 1))),
        upd2 st.a st.s2 0 (st.a st.s1 0 / ndu (p - (k + 1) + 1) (r - (k + 1))) st.s2 0 * ndu (r - (k + 1)) (p - (k + 1)))
    else (st.a, 0)) with ht0
  set j1 := if k + 1 ≤ r + 1 then 1 else k + 1 - r with hj1
  set j2 := if r ≤ p - (k + 1) + 1 then k + 1 - 1 else p - r with hj2
  have ht0s1 : ∀ x, t0.1 st.s1 x = st.a st.s1 x := by
    intro x
    rw [ht0]; split
    · exact upd2_ne _ _ _ _ _ _ (by omega)
    · rfl
  have ht0c : k + 1 ≤ r → t0.1 st.s2 0 = derCoef U p i (k + 1) 0 ∧ t0.2 = derCoef U p i (k + 1) 0 * bsp U κ u (p - (k + 1)) (i + 0) := by
    intro hkr
    have e1 := hlow 0 (by omega) (by omega)
    have e2 := hup 0 (by omega) (by omega)
    rw [add_zero] at e1 e2
    rw [ht0, if_pos hkr]
    have : st.a st.s1 0 / ndu (p - (k + 1) + 1) (r - (k + 1)) = derCoef U p i (k + 1) 0 := by
      rw [e1, hrow 0 (by omega) (by omega) (by omega), derCoef, if_pos rfl, sub_zero, add_zero]
    dsimp only
    rw [upd2_same, this, e2]; exact ⟨rfl, rfl⟩
  have ht0n : ¬ k + 1 ≤ r → t0.2 = 0 := by intro hkr; rw [ht0, if_neg hkr]
  obtain ⟨d1, d2, d3, d4⟩ := derInner_spec ndu st.s1 st.s2 (p - (k + 1)) (k + 1) r j1 hne t0.1 t0.2 (j2 + 1 - j1)
  generalize derInner ndu st.s1 st.s2 (p - (k + 1)) (k + 1) r j1 t0.1 t0.2 (j2 + 1 - j1) = t1 at d1 d2 d3 d4
  have hj1' : j1 = max 1 (k + 1 - r) := by rw [hj1]; split <;> omega
  have hj2' : j2 = min k (p - r) := by rw [hj2]; split <;> omega
  clear_value t0 j1 j2
  have hrng : ∀ x, j1 ≤ x → x < j1 + (j2 + 1 - j1) → 1 ≤ x ∧ x ≤ k ∧ k + 1 ≤ r + x ∧ r + x ≤ p := by
    intro x h1 h2; omega
  have hrow1 : ∀ x, j1 ≤ x → x < j1 + (j2 + 1 - j1) → t1.1 st.s2 x = derCoef U p i (k + 1) x := by
    intro x h1 h2
    obtain ⟨a1, a2, a3, a4⟩ := hrng x h1 h2
    rw [d3 x h1 h2, ht0s1, ht0s1, hmid x a1 a2 a3 a4]
  have hd1 : t1.2 = t0.2 + ∑ x ∈ Ico j1 (j1 + (j2 + 1 - j1)), derCoef U p i (k + 1) x * bsp U κ u (p - (k + 1)) (i + x) := by
    rw [d4, sum_Ico_eq_sum_range]
    congr 1
    rw [show j1 + (j2 + 1 - j1) - j1 = j2 + 1 - j1 by omega]
    apply sum_congr rfl
    intro t ht
    have ht := mem_range.1 ht
    obtain ⟨a1, a2, a3, a4⟩ := hrng (j1 + t) (by omega) (by omega)
    rw [ht0s1, ht0s1, hmid _ a1 a2 a3 a4, hup _ a3 a4]
  set t2 : (ℕ → ℕ → K) × K :=
    (if r ≤ p - (k + 1) then
      (upd2 t1.1 st.s2 (k + 1) (-t1.1 st.s1 (k + 1 - 1) / ndu (p - (k + 1) + 1) r),
        t1.2 + upd2 t1.1 st.s2 (k + 1) (-t1.1 st.s1 (k + 1 - 1) / ndu (p - (k + 1) + 1) r) st.s2 (k + 1) * ndu r (p - (k + 1)))
    else t1) with ht2
  have hlast : r ≤ p - (k + 1) → -t1.1 st.s1 (k + 1 - 1) / ndu (p - (k + 1) + 1) r = derCoef U p i (k + 1) (k + 1) ∧
      ndu r (p - (k + 1)) = bsp U κ u (p - (k + 1)) (i + (k + 1)) := by
    intro hrp
    have e1 := hlow (k + 1) (by omega) (by omega)
    have e2 := hup (k + 1) (by omega) (by omega)
    rw [show r + (k + 1) - (k + 1) = r by omega] at e1 e2
    refine ⟨?_, e2⟩
    rw [e1, d1, ht0s1, show k + 1 - 1 = k by omega, hrow k (by omega) (le_refl _) (by omega), derCoef, if_neg (by omega),
      derCoef_zero_of_gt _ _ _ _ _ (by omega : k < k + 1), show k + 1 - 1 = k by omega, zero_sub]
  refine ⟨⟨hne.symm, ?_⟩, ?_⟩
  · -- the new row
    intro j h1 h2 h3
    show t2.1 st.s2 j = _
    by_cases hjk : j = k + 1
    · subst hjk
      rw [ht2, if_pos (by omega)]
      show upd2 _ _ _ _ _ _ = _
      rw [upd2_same, (hlast (by omega)).1]
    · have hx : t2.1 st.s2 j = t1.1 st.s2 j := by
        rw [ht2]; split
        · exact upd2_ne _ _ _ _ _ _ (by omega)
        · rfl
      rw [hx]
      by_cases hj0 : j = 0
      · subst hj0
        rw [d2 0 (by omega), (ht0c (by omega)).1]
      · exact hrow1 j (by omega) (by omega)
  · show upd2 st.ders (k + 1) r t2.2 = _
    congr 1
    -- the value
    unfold derSum
    have hA : t0.2 = ∑ x ∈ Ico 0 (min j1 1), derCoef U p i (k + 1) x * bsp U κ u (p - (k + 1)) (i + x) := by
      rw [show min j1 1 = 1 by omega]
      by_cases hkr : k + 1 ≤ r
      · rw [(ht0c hkr).2]; simp
      · rw [ht0n hkr]
        rw [show Ico 0 1 = {0} from rfl, sum_singleton, bsp_zero_of_gt _ _ _ _ _ (by omega), mul_zero]
    have hzero : ∀ x, (r + x < k + 1 ∨ p < r + x) → derCoef U p i (k + 1) x * bsp U κ u (p - (k + 1)) (i + x) = 0 := by
      intro x hx
      rcases hx with hx | hx
      · rw [bsp_zero_of_gt _ _ _ _ _ (by omega), mul_zero]
      · rw [bsp_zero_of_lt _ _ _ _ _ (by omega), mul_zero]
    have hB : t1.2 = ∑ x ∈ range (k + 1), derCoef U p i (k + 1) x * bsp U κ u (p - (k + 1)) (i + x) := by
      rw [hd1, hA, show min j1 1 = 1 by omega, ← sum_union (by
        rw [disjoint_left]; intro x h1 h2; simp only [mem_Ico] at h1 h2; omega)]
      apply sum_subset
      · intro x hx; simp only [mem_union, mem_Ico, mem_range] at *; omega
      · intro x hx hx'
        simp only [mem_union, mem_Ico, mem_range] at *
        apply hzero; omega
    rw [sum_range_succ, ← hB, ht2]
    by_cases hrp : r ≤ p - (k + 1)
    · rw [if_pos hrp]
      dsimp only
      rw [upd2_same, (hlast hrp).1, (hlast hrp).2]
    · rw [if_neg hrp, hzero (k + 1) (by omega), add_zero]

theorem derLoopK_spec (U : ℕ → K) (κ : ℕ) (u : K) (p : ℕ) (hp : p ≤ κ) (r : ℕ) (hr : r ≤ p) (a ders : ℕ → ℕ → K)
    (k : ℕ) (hk : k ≤ p) :
    DerInv U p (κ - p + r) r k (derLoopK p (nduTable U κ u p) r a ders k) ∧
    (∀ k' r', (derLoopK p (nduTable U κ u p) r a ders k).ders k' r' =
      if 1 ≤ k' ∧ k' ≤ k ∧ r' = r then derSum U κ u p (κ - p + r) k' else ders k' r') := by
  induction k with
  | zero =>
    refine ⟨⟨by simp [derLoopK], ?_⟩, ?_⟩
    · intro j _ hj _
      obtain rfl : j = 0 := by omega
      simp [derLoopK, upd2, derCoef]
    · intro k' r'; rw [if_neg (by omega)]; rfl
  | succ k ih =>
    obtain ⟨h1, h2⟩ := ih (by omega)
    obtain ⟨h3, h4⟩ := derStep_spec U κ u p hp r hr k hk _ h1
    refine ⟨h3, ?_⟩
    intro k' r'
    show (derStep p (nduTable U κ u p) r (derLoopK p (nduTable U κ u p) r a ders k) (k + 1)).ders k' r' = _
    rw [h4]
    by_cases hc : k' = k + 1 ∧ r' = r
    · obtain ⟨rfl, rfl⟩ := hc
      rw [upd2_same, if_pos ⟨by omega, le_refl _, rfl⟩]
    · rw [upd2_ne _ _ _ _ _ _ hc, h2]
      by_cases hd : 1 ≤ k' ∧ k' ≤ k ∧ r' = r
      · rw [if_pos hd, if_pos ⟨hd.1, by omega, hd.2.2⟩]
      · rw [if_neg hd, if_neg (by omega)]

theorem derLoopR_spec (U : ℕ → K) (κ : ℕ) (u : K) (p order : ℕ) (hp : p ≤ κ) (ho : order ≤ p) (r : ℕ) (hr : r ≤ p + 1) :
    ∀ k' r', r' < r → k' ≤ order →
      (derLoopR p order (nduTable U κ u p) r).2 k' r' = derSum U κ u p (κ - p + r') k' := by
  have hgen : ∀ r, r ≤ p + 1 → ∀ k' r', (derLoopR p order (nduTable U κ u p) r).2 k' r' =
      if 1 ≤ k' ∧ k' ≤ order ∧ r' < r then derSum U κ u p (κ - p + r') k'
      else if k' = 0 then nduTable U κ u p r' p else 0 := by
    intro r
    induction r with
    | zero => intro _ k' r'; rw [if_neg (by omega)]; rfl
    | succ r ih =>
      intro hr k' r'
      simp only [derLoopR]
      rw [(derLoopK_spec U κ u p hp r (by omega) _ _ order ho).2 k' r', ih (by omega) k' r']
      by_cases hc : 1 ≤ k' ∧ k' ≤ order ∧ r' = r
      · rw [if_pos hc, if_pos (by omega)]; obtain ⟨-, -, rfl⟩ := hc; rfl
      · rw [if_neg hc]
        congr 1
        apply propext
        constructor
        · rintro ⟨a, b, c⟩; exact ⟨a, b, by omega⟩
        · rintro ⟨a, b, c⟩; exact ⟨a, b, by by_contra hh; exact hc ⟨a, b, by omega⟩⟩
  intro k' r' h1 h2
  rw [hgen r hr k' r']
  by_cases hk : k' = 0
  · subst hk
    rw [if_neg (by omega), if_pos rfl, (nduTable_spec U κ u p hp).1 p r' (le_refl _) (by omega)]
    simp [derSum, derCoef]
  · rw [if_pos (by omega)]

theorem derFactors_spec (p : ℕ) (ders : ℕ → ℕ → K) (k : ℕ) (hk : k ≤ p) :
    (derFactors p ders k).2 = (p.descFactorial (k + 1) : K) ∧
    ∀ k' j, j ≤ p → (derFactors p ders k).1 k' j = if k' ≤ k then (p.descFactorial k' : K) * ders k' j else ders k' j := by
  induction k with
  | zero =>
    refine ⟨by simp [derFactors], ?_⟩
    intro k' j _
    by_cases h : k' = 0
    · subst h; simp [derFactors]
    · rw [if_neg (by omega)]; rfl
  | succ k ih =>
    obtain ⟨h1, h2⟩ := ih (by omega)
    constructor
    · simp only [derFactors]
      rw [h1, Nat.descFactorial_succ p (k + 1), Nat.cast_mul, Nat.cast_sub hk]; ring
    · intro k' j hj
      simp only [derFactors]
      by_cases hc : k' = k + 1
      · subst hc
        rw [if_pos ⟨rfl, hj⟩, if_pos (le_refl _), h1, h2 _ _ hj, if_neg (by omega), mul_comm]
      · rw [if_neg (by omega), h2 _ _ hj]
        by_cases hd : k' ≤ k
        · rw [if_pos hd, if_pos (by omega)]
        · rw [if_neg hd, if_neg (by omega)]

theorem basisFunctionDers_eq (U : ℕ → K) (κ : ℕ) (u : K) (p order : ℕ) (hp : p ≤ κ) (ho : order ≤ p) (k r : ℕ)
    (hk : k ≤ order) (hr : r ≤ p) :
    basisFunctionDers p U κ u order k r = (p.descFactorial k : K) * derSum U κ u p (κ - p + r) k := by
  unfold basisFunctionDers
  rw [(derFactors_spec p _ order ho).2 k r hr, if_pos hk,
    derLoopR_spec U κ u p order hp ho (p + 1) (le_refl _) k r (by omega) hk]

end table

section calculus

/-- The derivative of a basis piece (NURBS book, 2.7). -/
theorem bsp_hasDerivAt (U : ℕ → ℝ) (hU : Monotone U) (κ : ℕ) (hv : U κ < U (κ + 1)) (p i : ℕ) (t : ℝ) :
    HasDerivAt (fun t => bsp U κ t (p + 1) i)
      (((p + 1 : ℕ) : ℝ) * (bsp U κ t p i / (U (i + p + 1) - U i) - bsp U κ t p (i + 1) / (U (i + p + 2) - U (i + 1)))) t := by
  induction p generalizing i with
  | zero =>
    have h1 : HasDerivAt (fun t => (t - U i) / (U (i + 0 + 1) - U i) * bsp U κ t 0 i)
        (1 / (U (i + 0 + 1) - U i) * bsp U κ t 0 i) t := by
      exact (((hasDerivAt_id t).sub_const (U i)).div_const _).mul_const _
    have h2 : HasDerivAt (fun t => (U (i + 0 + 2) - t) / (U (i + 0 + 2) - U (i + 1)) * bsp U κ t 0 (i + 1))
        (-1 / (U (i + 0 + 2) - U (i + 1)) * bsp U κ t 0 (i + 1)) t := by
      exact (((hasDerivAt_id t).const_sub _).div_const _).mul_const _
    have h3 := h1.add h2
    refine HasDerivAt.congr_deriv h3 ?_
    push_cast; ring
  | succ p ih =>
    have h1 := ((((hasDerivAt_id t).sub_const (U i)).div_const (U (i + (p + 1) + 1) - U i))).mul (ih i)
    have h2 := ((((hasDerivAt_id t).const_sub (U (i + (p + 1) + 2))).div_const (U (i + (p + 1) + 2) - U (i + 1)))).mul (ih (i + 1))
    have h3 := h1.add h2
    refine HasDerivAt.congr_deriv h3 ?_
    simp only [id]
    -- the piece in the middle has non-zero denominators or vanishes
    have hm : bsp U κ t p (i + 1) * ((U (i + (p + 1) + 1) - U i) / (U (i + (p + 1) + 1) - U i) -
        (U (i + (p + 1) + 2) - U (i + 1)) / (U (i + (p + 1) + 2) - U (i + 1))) = 0 := by
      by_cases hz : bsp U κ t p (i + 1) = 0
      · rw [hz, zero_mul]
      · have hk1 : ¬ κ < i + 1 := fun h => hz (bsp_zero_of_lt _ _ _ _ _ h)
        have hk2 : ¬ i + 1 + p < κ := fun h => hz (bsp_zero_of_gt _ _ _ _ _ h)
        have a1 := hU (show i ≤ κ by omega)
        have a2 := hU (show i + 1 ≤ κ by omega)
        have b1 := hU (show κ + 1 ≤ i + (p + 1) + 1 by omega)
        have b2 := hU (show κ + 1 ≤ i + (p + 1) + 2 by omega)
        rw [div_self (by linarith), div_self (by linarith), sub_self, mul_zero]
    have e1 := show bsp U κ t (p + 1) i = (t - U i) / (U (i + p + 1) - U i) * bsp U κ t p i +
      (U (i + p + 2) - t) / (U (i + p + 2) - U (i + 1)) * bsp U κ t p (i + 1) from rfl
    have e2 := show bsp U κ t (p + 1) (i + 1) = (t - U (i + 1)) / (U (i + 1 + p + 1) - U (i + 1)) * bsp U κ t p (i + 1) +
      (U (i + 1 + p + 2) - t) / (U (i + 1 + p + 2) - U (i + 1 + 1)) * bsp U κ t p (i + 1 + 1) from rfl
    rw [e1, e2]
    simp only [show i + 1 + p + 1 = i + p + 2 by omega, show i + (p + 1) + 1 = i + p + 2 by omega,
      show i + 1 + p + 2 = i + p + 3 by omega, show i + (p + 1) + 2 = i + p + 3 by omega,
      show i + 1 + 1 = i + 2 by omega] at hm ⊢
    generalize bsp U κ t p i = N0 at *
    generalize bsp U κ t p (i + 1) = N1 at *
    generalize bsp U κ t p (i + 2) = N2 at *
    push_cast
    simp only [div_eq_mul_inv] at hm ⊢
    linear_combination (-((p : ℝ) + 1) * (U (i + p + 2) - U (i + 1))⁻¹) * hm

theorem bsp_contDiff (U : ℕ → ℝ) (κ : ℕ) (p i : ℕ) (m : WithTop ℕ∞) : ContDiff ℝ m (fun t => bsp U κ t p i) := by
  induction p generalizing i with
  | zero => exact contDiff_const
  | succ p ih =>
    have h1 := ih i
    have h2 := ih (i + 1)
    show ContDiff ℝ m (fun t => (t - U i) / (U (i + p + 1) - U i) * bsp U κ t p i +
      (U (i + p + 2) - t) / (U (i + p + 2) - U (i + 1)) * bsp U κ t p (i + 1))
    fun_prop

/-- Summation by parts. -/
theorem abel_sum (c g : ℕ → ℝ) (k : ℕ) (hc : c (k + 1) = 0) :
    ∑ j ∈ range (k + 1), c j * (g j - g (j + 1)) =
      ∑ j ∈ range (k + 2), (c j - (if j = 0 then 0 else c (j - 1))) * g j := by
  have h1 : ∑ j ∈ range (k + 1), c j * (g j - g (j + 1)) =
      ∑ j ∈ range (k + 1), c j * g j - ∑ j ∈ range (k + 1), c j * g (j + 1) := by
    rw [← sum_sub_distrib]; exact sum_congr rfl fun _ _ => by ring
  have h2 : ∑ j ∈ range (k + 2), (c j - (if j = 0 then 0 else c (j - 1))) * g j =
      ∑ j ∈ range (k + 2), c j * g j - ∑ j ∈ range (k + 2), (if j = 0 then 0 else c (j - 1)) * g j := by
    rw [← sum_sub_distrib]; exact sum_congr rfl fun _ _ => by ring
  rw [h1, h2, sum_range_succ (fun j => c j * g j) (k + 1), hc, sum_range_succ' (fun j => (if j = 0 then 0 else c (j - 1)) * g j)]
  simp

theorem derSum_hasDerivAt (U : ℕ → ℝ) (hU : Monotone U) (κ : ℕ) (hv : U κ < U (κ + 1)) (p i k : ℕ) (hk : k + 1 ≤ p) (t : ℝ) :
    HasDerivAt (fun t => derSum U κ t p i k) (((p - k : ℕ) : ℝ) * derSum U κ t p i (k + 1)) t := by
  unfold derSum
  have hd : ∀ j ∈ range (k + 1), HasDerivAt (fun t => derCoef U p i k j * bsp U κ t (p - k) (i + j))
      (derCoef U p i k j * (((p - k : ℕ) : ℝ) * (bsp U κ t (p - (k + 1)) (i + j) / (U (i + p + j - k) - U (i + j)) -
        bsp U κ t (p - (k + 1)) (i + (j + 1)) / (U (i + p + (j + 1) - k) - U (i + (j + 1)))))) t := by
    intro j _
    have h := (bsp_hasDerivAt U hU κ hv (p - (k + 1)) (i + j) t).const_mul (derCoef U p i k j)
    rw [show p - (k + 1) + 1 = p - k by omega, show i + j + (p - (k + 1)) + 1 = i + p + j - k by omega,
      show i + j + (p - (k + 1)) + 2 = i + p + (j + 1) - k by omega] at h
    exact h
  have h := HasDerivAt.fun_sum hd
  refine HasDerivAt.congr_deriv h ?_
  have ha := abel_sum (derCoef U p i k) (fun j => bsp U κ t (p - (k + 1)) (i + j) / (U (i + p + j - k) - U (i + j))) k
    (derCoef_zero_of_gt _ _ _ _ _ (by omega))
  calc _ = ((p - k : ℕ) : ℝ) * ∑ j ∈ range (k + 1), derCoef U p i k j *
        (bsp U κ t (p - (k + 1)) (i + j) / (U (i + p + j - k) - U (i + j)) -
        bsp U κ t (p - (k + 1)) (i + (j + 1)) / (U (i + p + (j + 1) - k) - U (i + (j + 1)))) := by
        rw [mul_sum]; exact sum_congr rfl fun _ _ => by ring
    _ = _ := by
        rw [ha]
        congr 1
        apply sum_congr rfl
        intro j _
        show _ = derCoef U p i (k + 1) j * _
        rw [derCoef]
        ring

/-- All derivatives of a basis piece. -/
theorem bsp_iteratedDeriv (U : ℕ → ℝ) (hU : Monotone U) (κ : ℕ) (hv : U κ < U (κ + 1)) (p i k : ℕ) :
    iteratedDeriv k (fun t => bsp U κ t p i) =
      fun t => if k ≤ p then (p.descFactorial k : ℝ) * derSum U κ t p i k else 0 := by
  induction k with
  | zero => funext t; simp [derSum, derCoef]
  | succ k ih =>
    rw [iteratedDeriv_succ, ih]
    funext t
    by_cases hk : k + 1 ≤ p
    · rw [if_pos hk]
      simp only [if_pos (show k ≤ p by omega)]
      rw [((derSum_hasDerivAt U hU κ hv p i k hk t).const_mul _).deriv, Nat.descFactorial_succ]
      push_cast; ring
    · rw [if_neg hk]
      by_cases hk' : k ≤ p
      · simp only [if_pos hk']
        obtain rfl : k = p := by omega
        have : (fun t : ℝ => (k.descFactorial k : ℝ) * derSum U κ t k i k) =
            fun _ => (k.descFactorial k : ℝ) * derSum U κ 0 k i k := by
          funext t
          unfold derSum
          rw [Nat.sub_self]; rfl
        rw [this, deriv_const]
      · simp only [if_neg hk', deriv_const]

end calculus
end Volmdlr
