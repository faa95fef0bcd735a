import Verif.Nurbs.HelpersModel
import Verif.Nurbs.KnotLists
import Verif.Nurbs.Reparam
import Mathlib.Data.Nat.Choose.Basic
import Mathlib.Data.Nat.Choose.Cast

/-!
# C25, C26, C27, C28: the numerical helpers
-/

namespace Volmdlr
open Finset
section
variable {K : Type*} [Field K] [LinearOrder K]

theorem pysum_eq (i : ℕ) (f : ℕ → K) : pysum i f = ∑ j ∈ range i, f j := by
  unfold pysum
  induction i with
  | zero => simp
  | succ n ih => rw [List.range_succ, List.map_append, List.sum_append, ih, sum_range_succ]; simp

/-! ### C27 -/

theorem binomialLoop_eq [IsStrictOrderedRing K] (k i j : ℕ) (hj : j ≤ i) (hik : i ≤ k) :
    (binomialLoop k i j : K) * (i.descFactorial j : K) = (k.descFactorial j : K) := by
  induction j with
  | zero => simp [binomialLoop]
  | succ j ih =>
    have h := ih (by omega)
    have h0 : ((i - j : ℕ) : K) ≠ 0 := by exact_mod_cast (show i - j ≠ 0 by omega)
    rw [binomialLoop, Nat.descFactorial_succ, Nat.descFactorial_succ, Nat.cast_mul, Nat.cast_mul, ← h]
    field_simp

/-- **C27** `binomial_coefficient(k, i)` is the binomial coefficient. -/
theorem C27_binomial [IsStrictOrderedRing K] (k i : ℕ) : (binomialCoefficient k i : K) = (k.choose i : K) := by
  unfold binomialCoefficient
  split_ifs with h1 h2
  · rw [Nat.choose_eq_zero_of_lt h1]; simp
  · rcases h2 with rfl | rfl
    · simp
    · simp
  · have h := binomialLoop_eq (K := K) k i i (le_refl _) (by omega)
    rw [Nat.descFactorial_self, Nat.descFactorial_eq_factorial_mul_choose, Nat.cast_mul] at h
    have h0 : ((i.factorial : ℕ) : K) ≠ 0 := by exact_mod_cast i.factorial_ne_zero
    apply mul_right_cancel₀ h0
    rw [h, mul_comm]
example : (binomialCoefficient 7 3 : ℚ) = 35 := by decide +kernel

/-! ### C26 -/

/-- **C26** `linspace` (partial: ends more than `1e-7` apart): the requested number of values, evenly spaced
from `start` to `stop`. -/
theorem C26_linspace_partial [IsStrictOrderedRing K] (start stop : K) (num : ℕ) (h : 1 / 10 ^ 7 < |start - stop|)
    (hn : 2 ≤ num) :
    (linspace start stop num).length = num ∧ (linspace start stop num).head? = some start ∧
    (linspace start stop num).getLast? = some stop ∧
    ∀ i (hi : i + 1 < (linspace start stop num).length),
      (linspace start stop num)[i + 1] - (linspace start stop num)[i] = (stop - start) / ((num - 1 : ℕ) : K) := by
  have h0 : ((num - 1 : ℕ) : K) ≠ 0 := by exact_mod_cast (show num - 1 ≠ 0 by omega)
  unfold linspace
  simp only [if_neg (not_le.2 h)]
  refine ⟨by simp, ?_, ?_, ?_⟩
  · rw [List.head?_map, List.head?_range, if_neg (by omega)]; simp
  · rw [List.getLast?_map, List.getLast?_range, if_neg (by omega)]
    simp only [Option.map_some, Option.some.injEq]
    field_simp
    ring
  · intro i hi
    simp only [List.getElem_map, List.getElem_range]
    push_cast
    ring
example : linspace (0 : ℚ) 1 5 = [0, 1 / 4, 1 / 2, 3 / 4, 1] := by decide +kernel

/-- The unrestricted claim about the number of values. -/
def C26_linspace_full_statement (K : Type) [Field K] [LinearOrder K] : Prop :=
  ∀ (start stop : K) (num : ℕ), 2 ≤ num → (linspace start stop num).length = num

/-- **C26** between ends at most `1e-7` apart only one value is returned. -/
theorem C26_linspace_counterexample : ¬ C26_linspace_full_statement ℚ := by
  intro h
  have := h 0 (1 / 10 ^ 8) 3 (by norm_num)
  revert this
  decide +kernel

/-- **C26** what happens then. -/
theorem C26_linspace_close (start stop : K) (num : ℕ) (h : |start - stop| ≤ 1 / 10 ^ 7) :
    linspace start stop num = [start] := by unfold linspace; rw [if_pos h]
example : linspace (3 : ℚ) 3 10 = [3] := by decide +kernel

/-- **C26** the clamped knot vector: `n + p + 1` knots, non-decreasing from 0 to 1, `p + 1` equal knots at the
ends, distinct interior knots. -/
theorem C26_generate_clamped [IsStrictOrderedRing K] (p n : ℕ) (hp : 0 < p) (hpn : p < n) :
    ∃ kv : List K, generateKnotVector p n true = some kv ∧ kv.length = n + p + 1 ∧ kv.Pairwise (· ≤ ·) ∧
      (∀ i (hi : i < kv.length), kv[i] = if i ≤ p then 0 else if i ≤ n then ((i - p : ℕ) : K) / ((n - p : ℕ) : K) else 1) ∧
      Clamped p n (kvFun kv) ∧ InteriorMult p n (kvFun kv) := by
  have h1 : ¬ (p = 0 ∨ n = 0) := by omega
  have habs : ¬ (|(0 : K) - 1| ≤ 1 / 10 ^ 7) := by
    rw [zero_sub, abs_neg, abs_one, not_le]; norm_num
  have hq : (0 : K) < ((n - p : ℕ) : K) := by exact_mod_cast (show 0 < n - p by omega)
  unfold generateKnotVector linspace
  simp only [if_neg h1, if_pos, if_neg habs]
  refine ⟨_, rfl, ?_⟩
  set kv : List K := List.replicate p 0 ++ List.map (fun x : ℕ => (0 : K) + (x : K) * (1 - 0) / ((n - (p + 1) + 2 - 1 : ℕ) : K))
    (List.range (n - (p + 1) + 2)) ++ List.replicate p 1 with hkv
  have hlen : kv.length = n + p + 1 := by rw [hkv]; simp; omega
  have hget : ∀ i (hi : i < kv.length),
      kv[i] = if i ≤ p then 0 else if i ≤ n then ((i - p : ℕ) : K) / ((n - p : ℕ) : K) else 1 := by
    intro i hi
    have e : n - (p + 1) + 2 - 1 = n - p := by omega
    have e' : n - (p + 1) + 2 = n - p + 1 := by omega
    simp only [hkv, e, e']
    rcases Nat.lt_or_ge i p with h | h
    · rw [List.getElem_append_left (by simp; omega), List.getElem_append_left (by simpa using h),
        List.getElem_replicate, if_pos h.le]
    rcases Nat.lt_or_ge n i with h2 | h2
    · rw [List.getElem_append_right (by simp; omega), List.getElem_replicate, if_neg (by omega), if_neg (by omega)]
    · rw [List.getElem_append_left (by simp; omega), List.getElem_append_right (by simpa using h), List.getElem_map,
        List.getElem_range, List.length_replicate, zero_add, sub_zero, mul_one]
      by_cases h3 : i ≤ p
      · rw [if_pos h3, show i - p = 0 by omega]; simp
      · rw [if_neg h3, if_pos h2, Nat.add_sub_cancel]
  have hf : ∀ i, i < n + p + 1 → kvFun kv i =
      if i ≤ p then 0 else if i ≤ n then ((i - p : ℕ) : K) / ((n - p : ℕ) : K) else 1 := by
    intro i hi; rw [kvFun_lt kv i (by omega), hget i (by omega)]
  have hle : ∀ i j : ℕ, i ≤ j → ((i - p : ℕ) : K) / ((n - p : ℕ) : K) ≤ ((j - p : ℕ) : K) / ((n - p : ℕ) : K) := by
    intro i j hij
    rw [div_le_div_iff_of_pos_right hq]
    exact_mod_cast (show i - p ≤ j - p by omega)
  have hnn : ∀ i : ℕ, (0 : K) ≤ ((i - p : ℕ) : K) / ((n - p : ℕ) : K) := fun i => div_nonneg (Nat.cast_nonneg _) hq.le
  have hl1 : ∀ i : ℕ, i ≤ n → ((i - p : ℕ) : K) / ((n - p : ℕ) : K) ≤ 1 := by
    intro i hi
    rw [div_le_one hq]; exact_mod_cast (show i - p ≤ n - p by omega)
  have hsort : kv.Pairwise (· ≤ ·) := by
    rw [List.pairwise_iff_getElem]
    intro i j hi hj hij
    rw [hget i hi, hget j hj]
    split_ifs <;> first | omega | exact le_refl _ | exact hnn _ | exact zero_le_one | exact hle _ _ hij.le | exact hl1 _ ‹_›
  refine ⟨hlen, hsort, hget, ⟨hpn, kvFun_mono kv hsort, ?_, ?_, ?_, ?_⟩, ?_⟩
  · rw [hf 0 (by omega), hf p (by omega), if_pos (by omega), if_pos (by omega)]
  · rw [hf _ (by omega), hf n (by omega), if_neg (by omega), if_neg (by omega), if_neg (by omega), if_pos (le_refl _),
      div_self hq.ne']
  · rw [hf p (by omega), hf _ (by omega), if_pos (le_refl _), if_neg (by omega), if_pos (by omega)]
    exact div_pos (by exact_mod_cast (show 0 < p + 1 - p by omega)) hq
  · rw [hf _ (by omega), hf n (by omega), if_neg (show ¬ n ≤ p by omega), if_pos (le_refl n)]
    split_ifs
    · rw [div_self hq.ne']; exact zero_lt_one
    · rw [div_lt_div_iff_of_pos_right hq]; exact_mod_cast (show n - 1 - p < n - p by omega)
    · omega
  · intro i hi0 hin
    rw [hf i (by omega), hf _ (by omega), if_neg (show ¬ i + p ≤ p by omega)]
    split_ifs <;> first
      | omega
      | exact div_pos (by exact_mod_cast (show 0 < i + p - p by omega)) hq
      | exact zero_lt_one
      | (rw [div_lt_div_iff_of_pos_right hq]; exact_mod_cast (show i - p < i + p - p by omega))
      | (rw [div_lt_one hq]; exact_mod_cast (show i - p < n - p by omega))
example : generateKnotVector 2 4 true = some ([0, 0, 0, 1 / 2, 1, 1, 1] : List ℚ) := by decide +kernel

/-- **C26** the unclamped knot vector is evenly spaced on `[0, 1]` and has `n + p + 1` knots. -/
theorem C26_generate_unclamped [IsStrictOrderedRing K] (p n : ℕ) (hp : 0 < p) (hn : 0 < n) :
    ∃ kv : List K, generateKnotVector p n false = some kv ∧ kv.length = n + p + 1 ∧
      ∀ i (hi : i < kv.length), kv[i] = (i : K) / ((n + p : ℕ) : K) := by
  have h1 : ¬ (p = 0 ∨ n = 0) := by omega
  have habs : ¬ (|(0 : K) - 1| ≤ 1 / 10 ^ 7) := by
    rw [zero_sub, abs_neg, abs_one, not_le]; norm_num
  unfold generateKnotVector linspace
  simp only [if_neg h1, Bool.false_eq_true, if_false, if_neg habs, List.replicate_zero, List.nil_append, List.append_nil]
  refine ⟨_, rfl, by simp; omega, ?_⟩
  intro i hi
  rw [List.getElem_map, List.getElem_range, zero_add, sub_zero, mul_one, show p + n - 1 + 2 - 1 = n + p by omega]
example : generateKnotVector 1 2 false = some ([0, 1 / 3, 2 / 3, 1] : List ℚ) := by decide +kernel

/-- **C26** zero degree or no control point is refused. -/
theorem C26_generate_refused (p n : ℕ) (c : Bool) : generateKnotVector (K := K) p n c = none ↔ p = 0 ∨ n = 0 := by
  unfold generateKnotVector
  by_cases h : p = 0 ∨ n = 0
  · rw [if_pos h]; exact ⟨fun _ => h, fun _ => rfl⟩
  · rw [if_neg h]; simp [h]

theorem headD_mem (l : List K) (h : l ≠ []) : l.headD 0 ∈ l := by
  cases l with
  | nil => exact absurd rfl h
  | cons a t => simp
theorem getLastD_mem (l : List K) (h : l ≠ []) : l.getLastD 0 ∈ l := by
  rw [List.getLastD_eq_getLast?, List.getLast?_eq_getLast_of_ne_nil h]; exact List.getLast_mem h

/-- **C26** `standardize_knot_vector`: first knot 0, last knot 1, an increasing affine map of the knots, and
doing it twice changes nothing more. -/
theorem C26_standardize [IsStrictOrderedRing K] (kv : List K) (hne : kv ≠ []) (hlt : kv.headD 0 < kv.getLastD 0) :
    (standardizeKnotVector kv).head? = some 0 ∧ (standardizeKnotVector kv).getLast? = some 1 ∧
    (∃ a b : K, 0 < a ∧ standardizeKnotVector kv = kv.map fun k => a * k + b) ∧
    (kv.Pairwise (· ≤ ·) → (standardizeKnotVector kv).Pairwise (· ≤ ·) ∧
      ∀ k ∈ standardizeKnotVector kv, 0 ≤ k ∧ k ≤ 1) ∧
    standardizeKnotVector (standardizeKnotVector kv) = standardizeKnotVector kv := by
  set A := kv.headD 0 with hA
  set B := kv.getLastD 0 with hB
  have hpos : 0 < B - A := sub_pos.2 hlt
  have hs : standardizeKnotVector kv = kv.map fun k => (k - A) / (B - A) := rfl
  have hh : kv.head? = some A := by
    rw [hA, List.headD_eq_head?_getD]
    cases kv with
    | nil => exact absurd rfl hne
    | cons a t => rfl
  have hl : kv.getLast? = some B := by
    rw [hB, List.getLastD_eq_getLast?, List.getLast?_eq_getLast_of_ne_nil hne]; rfl
  have h0 : (standardizeKnotVector kv).head? = some 0 := by
    rw [hs, List.head?_map, hh]; simp
  have h1 : (standardizeKnotVector kv).getLast? = some 1 := by
    rw [hs, List.getLast?_map, hl]; simp [div_self hpos.ne']
  have hord : kv.Pairwise (· ≤ ·) → (standardizeKnotVector kv).Pairwise (· ≤ ·) := by
    intro h
    rw [hs, List.pairwise_map]
    apply h.imp
    intro a b hab
    rw [div_le_div_iff_of_pos_right hpos]; linarith
  refine ⟨h0, h1, ⟨(B - A)⁻¹, -A / (B - A), inv_pos.2 hpos, ?_⟩, ?_, ?_⟩
  · rw [hs]
    apply List.map_congr_left
    intro k _
    field_simp
    ring
  · intro h
    refine ⟨hord h, ?_⟩
    intro k hk
    have hne' : standardizeKnotVector kv ≠ [] := List.ne_nil_of_mem hk
    obtain ⟨i, hi, rfl⟩ := List.getElem_of_mem hk
    have hm := kvFun_mono _ (hord h)
    have e0 : kvFun (standardizeKnotVector kv) 0 = 0 := by
      rw [kvFun_lt _ _ (by omega)]
      have := h0
      rw [List.head?_eq_getElem?, List.getElem?_eq_getElem (by omega)] at this
      simpa using this
    have e1 : kvFun (standardizeKnotVector kv) ((standardizeKnotVector kv).length - 1) = 1 := by
      rw [kvFun_last _ _ (by omega) hne']
      have := h1
      rw [List.getLast?_eq_getLast_of_ne_nil hne'] at this
      simpa using this
    rw [← kvFun_lt _ _ hi]
    exact ⟨e0 ▸ hm (Nat.zero_le i), e1 ▸ hm (by omega)⟩
  · conv_lhs => rw [standardizeKnotVector]
    rw [List.headD_eq_head?_getD, h0, List.getLastD_eq_getLast?, h1]
    simp
example : standardizeKnotVector ([2, 2, 3, 6, 6] : List ℚ) = [0, 0, 1 / 4, 1, 1] := by decide +kernel

/-! ### C28: `insert_knots_and_mutiplicity` -/

theorem repeatKnots_cons (k : K) (ks : List K) (m : ℕ) (ms : List ℕ) :
    repeatKnots (k :: ks) (m :: ms) = List.replicate m k ++ repeatKnots ks ms := by
  simp [repeatKnots]

/-- **C28** (partial: some knot is larger than the added one) the returned lists describe the old knot vector
with exactly `num` more copies of the added knot; the knots stay sorted. -/
theorem C28_insert_partial (x : K) (num : ℕ) (knots : List K) (mults : List ℕ) (i : ℕ)
    (hl : mults.length = knots.length) (hs : knots.Pairwise (· ≤ ·)) (hx : ∃ k ∈ knots, x < k) :
    (insertKnotsMult x num knots mults i).1.Perm (x :: knots) ∧
    (insertKnotsMult x num knots mults i).1.Pairwise (· ≤ ·) ∧
    (insertKnotsMult x num knots mults i).2.1.length = knots.length + 1 ∧
    (repeatKnots (insertKnotsMult x num knots mults i).1 (insertKnotsMult x num knots mults i).2.1).Perm
      (List.replicate num x ++ repeatKnots knots mults) ∧
    (insertKnotsMult x num knots mults i).2.2 = i + knots.countP (fun k => decide (k ≤ x)) := by
  induction knots generalizing mults i with
  | nil => obtain ⟨k, hk, -⟩ := hx; simp at hk
  | cons k ks ih =>
    cases mults with
    | nil => simp at hl
    | cons m ms =>
      obtain ⟨p1, p2⟩ := List.pairwise_cons.1 hs
      rw [insertKnotsMult]
      by_cases h : x < k
      · rw [if_pos h]
        refine ⟨List.Perm.refl _, ?_, ?_, ?_, ?_⟩
        · rw [List.pairwise_cons]
          refine ⟨?_, hs⟩
          intro a ha
          rcases List.mem_cons.1 ha with rfl | ha
          · exact h.le
          · exact h.le.trans (p1 a ha)
        · simp at hl; simp [hl]
        · rw [repeatKnots_cons]
        · have : (k :: ks).countP (fun k => decide (k ≤ x)) = 0 := by
            rw [List.countP_eq_zero]
            intro a ha
            rcases List.mem_cons.1 ha with rfl | ha
            · simpa using h
            · simpa using h.trans_le (p1 a ha)
          rw [this]; rfl
      · rw [if_neg h]
        have hx' : ∃ k ∈ ks, x < k := by
          obtain ⟨a, ha, hax⟩ := hx
          rcases List.mem_cons.1 ha with rfl | ha
          · exact absurd hax h
          · exact ⟨a, ha, hax⟩
        cases ks with
        | nil => obtain ⟨a, ha, -⟩ := hx'; simp at ha
        | cons k2 ks2 =>
          have hl' : ms.length = (k2 :: ks2).length := by simpa using hl
          obtain ⟨i1, i2, i3, i4, i5⟩ := ih ms (i + 1) hl' p2 hx'
          rw [if_neg (by simp)]
          dsimp only
          generalize insertKnotsMult x num (k2 :: ks2) ms (i + 1) = r at *
          refine ⟨(i1.cons k).trans (List.Perm.swap x k _), ?_, ?_, ?_, ?_⟩
          · rw [List.pairwise_cons]
            refine ⟨?_, i2⟩
            intro a ha
            rcases List.mem_cons.1 (i1.mem_iff.1 ha) with rfl | ha
            · exact not_lt.1 h
            · exact p1 a ha
          · simp [i3]
          · rw [repeatKnots_cons, repeatKnots_cons]
            refine (i4.append_left _).trans ?_
            rw [← List.append_assoc, ← List.append_assoc]
            exact List.perm_append_comm.append_right _
          · rw [i5, List.countP_cons_of_pos (a := k) (by simpa using h)]; omega

example : insertKnotsMult (1 / 3 : ℚ) 2 [0, 1 / 2, 1] [3, 1, 3] 0 = ([0, 1 / 3, 1 / 2, 1], [3, 2, 1, 3], 1) := by
  decide +kernel

/-- The unrestricted claim. -/
def C28_insert_full_statement (K : Type) [Field K] [LinearOrder K] : Prop :=
  ∀ (x : K) (num : ℕ) (knots : List K) (mults : List ℕ), mults.length = knots.length → knots.Pairwise (· ≤ ·) →
    (repeatKnots (insertKnotsMult x num knots mults 0).1 (insertKnotsMult x num knots mults 0).2.1).Perm
      (List.replicate num x ++ repeatKnots knots mults)

/-- **C28** a knot that is not smaller than the last one is not inserted at all. -/
theorem C28_insert_counterexample : ¬ C28_insert_full_statement ℚ := by
  intro h
  have := h 1 1 [0, 1] [2, 2] rfl (by decide +kernel)
  revert this
  decide +kernel

/-- **C28** precisely: without a larger knot the lists are returned unchanged. -/
theorem C28_insert_dropped (x : K) (num : ℕ) (knots : List K) (mults : List ℕ) (i : ℕ)
    (hl : mults.length = knots.length) (hx : ∀ k ∈ knots, k ≤ x) :
    (insertKnotsMult x num knots mults i).1 = knots ∧ (insertKnotsMult x num knots mults i).2.1 = mults := by
  induction knots generalizing mults i with
  | nil =>
    cases mults with
    | nil => exact ⟨rfl, rfl⟩
    | cons m ms => simp at hl
  | cons k ks ih =>
    cases mults with
    | nil => simp at hl
    | cons m ms =>
      rw [insertKnotsMult, if_neg (not_lt.2 (hx k (by simp)))]
      cases ks with
      | nil =>
        have : ms = [] := List.length_eq_zero_iff.1 (by simpa using hl)
        subst this; exact ⟨rfl, rfl⟩
      | cons k2 ks2 =>
        obtain ⟨a, b⟩ := ih ms (i + 1) (by simpa using hl) (fun k hk => hx k (by simp [List.mem_cons.1 hk]))
        rw [if_neg (by simp)]
        dsimp only
        rw [a, b]; exact ⟨rfl, rfl⟩
example : (insertKnotsMult (1 : ℚ) 5 [0, 1] [2, 2] 0).1 = [0, 1] := by decide +kernel

/-! ### C25 -/

/-- The effect of one round of `doolittle`. -/
theorem dooRow_spec (A : ℕ → ℕ → K) (i : ℕ) (L0 U0 : ℕ → ℕ → K) (m : ℕ) :
    (∀ r c, (dooRow A i (L0, U0) m).2 r c =
      if r = i ∧ i ≤ c ∧ c < i + m then A i c - ∑ j ∈ range i, L0 i j * U0 j c else U0 r c) ∧
    (∀ r c, (dooRow A i (L0, U0) m).1 r c =
      if c = i ∧ i ≤ r ∧ r < i + m then
        (if r = i then 1 else
          if A i i - ∑ j ∈ range i, L0 i j * U0 j i ≠ 0 then
            (A r i - ∑ j ∈ range i, L0 r j * U0 j i) / (A i i - ∑ j ∈ range i, L0 i j * U0 j i) else 0)
      else L0 r c) := by
  induction m with
  | zero =>
    constructor
    · intro r c; rw [if_neg (by omega)]; rfl
    · intro r c; rw [if_neg (by omega)]; rfl
  | succ m ih =>
    obtain ⟨h2, h1⟩ := ih
    rw [dooRow]
    set LU := dooRow A i (L0, U0) m with hLU
    -- sums read rows and columns before i
    have s1 : ∀ k, (pysum i fun j => LU.1 k j * LU.2 j (i + m)) = ∑ j ∈ range i, L0 k j * U0 j (i + m) := by
      intro k
      rw [pysum_eq]
      apply sum_congr rfl
      intro j hj
      have := mem_range.1 hj
      rw [h1, h2, if_neg (by omega), if_neg (by omega)]
    have hU : ∀ r c, upd2 LU.2 i (i + m) (A i (i + m) - pysum i fun j => LU.1 i j * LU.2 j (i + m)) r c =
        if r = i ∧ i ≤ c ∧ c < i + (m + 1) then A i c - ∑ j ∈ range i, L0 i j * U0 j c else U0 r c := by
      intro r c
      unfold upd2
      rw [s1 i]
      by_cases e : r = i ∧ c = i + m
      · rw [if_pos e, if_pos ⟨e.1, by omega, by omega⟩, e.2]
      · rw [if_neg e, h2]
        by_cases e2 : r = i ∧ i ≤ c ∧ c < i + m
        · rw [if_pos e2, if_pos ⟨e2.1, e2.2.1, by omega⟩]
        · rw [if_neg e2, if_neg (by omega)]
    unfold dooStep
    dsimp only
    generalize upd2 LU.2 i (i + m) (A i (i + m) - pysum i fun j => LU.1 i j * LU.2 j (i + m)) = U at *
    have hii : U i i = A i i - ∑ j ∈ range i, L0 i j * U0 j i := by
      rw [hU]; exact if_pos ⟨rfl, le_refl _, by omega⟩
    have s2 : (pysum i fun j => LU.1 (i + m) j * U j i) = ∑ j ∈ range i, L0 (i + m) j * U0 j i := by
      rw [pysum_eq]
      apply sum_congr rfl
      intro j hj
      have := mem_range.1 hj
      rw [h1, if_neg (by omega), hU, if_neg (by omega)]
    rw [s2]
    simp only [hii]
    by_cases e : i = i + m
    · rw [if_pos e]
      refine ⟨hU, ?_⟩
      intro r c
      have hm : m = 0 := by omega
      unfold upd2
      dsimp only
      by_cases e2 : r = i ∧ c = i
      · rw [if_pos e2, if_pos ⟨e2.2, by omega, by omega⟩, if_pos e2.1]
      · rw [if_neg e2, h1, if_neg (by omega), if_neg (by omega)]
    · rw [if_neg e]
      have key : ∀ v : K, v = (if A i i - ∑ j ∈ range i, L0 i j * U0 j i ≠ 0 then
            (A (i + m) i - ∑ j ∈ range i, L0 (i + m) j * U0 j i) / (A i i - ∑ j ∈ range i, L0 i j * U0 j i) else 0) →
          ∀ r c, upd2 LU.1 (i + m) i v r c = if c = i ∧ i ≤ r ∧ r < i + (m + 1) then
            (if r = i then 1 else
              if A i i - ∑ j ∈ range i, L0 i j * U0 j i ≠ 0 then
                (A r i - ∑ j ∈ range i, L0 r j * U0 j i) / (A i i - ∑ j ∈ range i, L0 i j * U0 j i) else 0)
            else L0 r c := by
        intro v hv r c
        unfold upd2
        by_cases e2 : r = i + m ∧ c = i
        · rw [if_pos e2, if_pos (show c = i ∧ i ≤ r ∧ r < i + (m + 1) by omega), if_neg (show ¬ r = i by omega), hv, e2.1]
        · rw [if_neg e2, h1]
          by_cases e3 : c = i ∧ i ≤ r ∧ r < i + m
          · rw [if_pos e3, if_pos (show c = i ∧ i ≤ r ∧ r < i + (m + 1) by omega)]
          · rw [if_neg e3, if_neg (by omega)]
      by_cases hz : A i i - ∑ j ∈ range i, L0 i j * U0 j i ≠ 0
      · rw [if_pos hz]
        exact ⟨hU, key _ (by rw [if_pos hz])⟩
      · rw [if_neg hz]
        exact ⟨hU, key _ (by rw [if_neg hz])⟩

/-- The invariant of `doolittle` after `i` rounds. -/
structure DooInv (A : ℕ → ℕ → K) (n i : ℕ) (L U : ℕ → ℕ → K) : Prop where
  upper : ∀ r c, c < r → U r c = 0
  lower : ∀ r c, r < c → L r c = 0
  urow : ∀ r c, i ≤ r → U r c = 0
  lcol : ∀ r c, i ≤ c → L r c = 0
  diag : ∀ r, r < i → r < n → L r r = 1
  rows : ∀ r c, r < i → r ≤ c → c < n → U r c + ∑ j ∈ range r, L r j * U j c = A r c
  cols : ∀ r c, c < i → c < r → r < n → U c c ≠ 0 → L r c * U c c + ∑ j ∈ range c, L r j * U j c = A r c

theorem doolittle_inv (A : ℕ → ℕ → K) (n i : ℕ) (hi : i ≤ n) :
    DooInv A n i (doolittle A n i).1 (doolittle A n i).2 := by
  induction i with
  | zero =>
    refine ⟨fun _ _ _ => rfl, fun _ _ _ => rfl, fun _ _ _ => rfl, fun _ _ _ => rfl, ?_, ?_, ?_⟩ <;> intros <;> omega
  | succ i ih =>
    have inv := ih (by omega)
    rw [doolittle]
    obtain ⟨h2, h1⟩ := dooRow_spec A i (doolittle A n i).1 (doolittle A n i).2 (n - i)
    rw [show ((doolittle A n i).1, (doolittle A n i).2) = doolittle A n i from rfl] at h1 h2
    set L0 := (doolittle A n i).1
    set U0 := (doolittle A n i).2
    set LU := dooRow A i (doolittle A n i) (n - i)
    have e : i + (n - i) = n := by omega
    rw [e] at h1 h2
    -- sums over earlier indices are unchanged
    have hs : ∀ r c m, m ≤ i → ∑ j ∈ range m, LU.1 r j * LU.2 j c = ∑ j ∈ range m, L0 r j * U0 j c := by
      intro r c m hm
      apply sum_congr rfl
      intro j hj
      have := mem_range.1 hj
      rw [h1, h2, if_neg (by omega), if_neg (by omega)]
    refine ⟨?_, ?_, ?_, ?_, ?_, ?_, ?_⟩
    · intro r c hrc
      rw [h2, if_neg (by omega)]; exact inv.upper r c hrc
    · intro r c hrc
      rw [h1, if_neg (by omega)]; exact inv.lower r c hrc
    · intro r c hr
      rw [h2, if_neg (by omega)]; exact inv.urow r c (by omega)
    · intro r c hc
      rw [h1, if_neg (by omega)]; exact inv.lcol r c (by omega)
    · intro r hr hrn
      rw [h1]
      by_cases hri : r = i
      · rw [if_pos ⟨hri, by omega, hrn⟩, if_pos hri]
      · rw [if_neg (by omega)]; exact inv.diag r (by omega) hrn
    · intro r c hr hrc hcn
      rw [hs r c r (by omega), h2]
      by_cases hri : r = i
      · subst hri
        rw [if_pos ⟨rfl, hrc, hcn⟩]; ring
      · rw [if_neg (by omega)]; exact inv.rows r c (by omega) hrc hcn
    · intro r c hc hcr hrn hz
      rw [hs r c c (by omega)]
      by_cases hci : c = i
      · subst hci
        rw [h2, if_pos ⟨rfl, le_refl _, by omega⟩] at hz ⊢
        rw [h1, if_pos ⟨rfl, by omega, hrn⟩, if_neg (by omega), if_pos hz, div_mul_cancel₀ _ hz]; ring
      · rw [h2, if_neg (by omega)] at hz ⊢
        rw [h1, if_neg (by omega)]
        exact inv.cols r c (by omega) hcr hrn hz

/-- **C25** `lu_decomposition`: `L` is unit lower triangular, `U` is upper triangular, and `L U = A` when no
pivot that is divided by is zero (the last one may be). -/
theorem C25_lu (A : ℕ → ℕ → K) (n : ℕ) (L U : ℕ → ℕ → K) (h : doolittle A n n = (L, U)) :
    (∀ r, r < n → L r r = 1) ∧ (∀ r c, r < c → L r c = 0) ∧ (∀ r c, c < r → U r c = 0) ∧
    ((∀ i, i + 1 < n → U i i ≠ 0) → ∀ r c, r < n → c < n → ∑ j ∈ range n, L r j * U j c = A r c) := by
  have inv := doolittle_inv A n n (le_refl _)
  rw [h] at inv
  dsimp only at inv
  refine ⟨fun r hr => inv.diag r hr hr, inv.lower, inv.upper, ?_⟩
  intro hz r c hr hc
  rcases Nat.lt_or_ge c r with hcr | hrc
  · have h1 := inv.cols r c hc hcr hr (hz c (by omega))
    rw [← h1]
    have : ∑ j ∈ range n, L r j * U j c = ∑ j ∈ range (c + 1), L r j * U j c := by
      symm
      apply sum_subset
      · intro j hj; simp only [mem_range] at *; omega
      · intro j _ hj
        simp only [mem_range] at hj
        rw [inv.upper j c (by omega), mul_zero]
    rw [this, sum_range_succ]; ring
  · have h1 := inv.rows r c hr hrc hc
    rw [← h1]
    have : ∑ j ∈ range n, L r j * U j c = ∑ j ∈ range (r + 1), L r j * U j c := by
      symm
      apply sum_subset
      · intro j hj; simp only [mem_range] at *; omega
      · intro j _ hj
        simp only [mem_range] at hj
        rw [inv.lower r j (by omega), zero_mul]
    rw [this, sum_range_succ, inv.diag r hr hr]; ring

/-- **C25** the function on lists: refused exactly for a matrix that is not square, otherwise the factors of
`C25_lu`. -/
theorem C25_square (A : List (List K)) :
    (luDecomposition A = none ↔ ∃ row ∈ A, row.length ≠ A.length) ∧
    ∀ r, luDecomposition A = some r → r = doolittle (fun i j => (A.getD i []).getD j 0) A.length A.length := by
  unfold luDecomposition
  constructor
  · split_ifs with h
    · simp only [reduceCtorEq, false_iff, not_exists, not_and, not_not]
      simpa [List.all_eq_true] using h
    · simp only [true_iff]
      simpa [List.all_eq_true] using h
  · intro r
    split_ifs with h
    · intro h'; exact (Option.some.inj h').symm
    · intro h'; exact absurd h' (by simp)

example : ∀ i, i + 1 < 3 → (doolittle (fun i j => (([[2, 1, 1], [4, 3, 3], [8, 7, 9]] : List (List ℚ)).getD i []).getD j 0)
    3 3).2 i i ≠ 0 := by
  intro i hi
  rcases (by omega : i = 0 ∨ i = 1) with rfl | rfl <;> decide +kernel
/-- With a zero pivot the factors are silently wrong. -/
theorem C25_zero_pivot : ∃ A : ℕ → ℕ → ℚ, A 0 0 * A 1 1 - A 0 1 * A 1 0 ≠ 0 ∧
    ¬ ∀ r c, r < 2 → c < 2 → ∑ j ∈ range 2, (doolittle A 2 2).1 r j * (doolittle A 2 2).2 j c = A r c := by
  refine ⟨fun i j => if i = j then 0 else 1, by decide +kernel, ?_⟩
  intro h
  have := h 1 0 (by norm_num) (by norm_num)
  revert this
  decide +kernel

theorem forwardSub_stable (L : ℕ → ℕ → K) (b : ℕ → K) (m d j : ℕ) (hj : j < m) :
    forwardSub L b (m + d) j = forwardSub L b m j := by
  induction d with
  | zero => rfl
  | succ d ih =>
    rw [← add_assoc, forwardSub]
    rw [Function.update_of_ne (by omega), ih]

/-- **C25** `forward_substitution` solves `L y = b` for a lower triangular `L` with non-zero diagonal. -/
theorem C25_forward (L : ℕ → ℕ → K) (b : ℕ → K) (q : ℕ) (hL : ∀ r c, r < c → c < q → L r c = 0)
    (hd : ∀ i, i < q → L i i ≠ 0) (i : ℕ) (hi : i < q) :
    ∑ j ∈ range q, L i j * forwardSub L b q j = b i := by
  have h1 : ∑ j ∈ range q, L i j * forwardSub L b q j = ∑ j ∈ range (i + 1), L i j * forwardSub L b q j := by
    symm
    apply sum_subset
    · intro j hj; simp only [mem_range] at *; omega
    · intro j hj hj'
      simp only [mem_range] at hj hj'
      rw [hL i j (by omega) hj, zero_mul]
  have h2 : forwardSub L b q i = (b i - ∑ j ∈ range i, L i j * forwardSub L b i j) / L i i := by
    have := forwardSub_stable L b (i + 1) (q - (i + 1)) i (by omega)
    rw [show i + 1 + (q - (i + 1)) = q by omega] at this
    rw [this, forwardSub]
    rw [Function.update_self, pysum_eq]
  have h3 : ∀ j ∈ range i, L i j * forwardSub L b q j = L i j * forwardSub L b i j := by
    intro j hj
    have hj := mem_range.1 hj
    have := forwardSub_stable L b i (q - i) j hj
    rw [show i + (q - i) = q by omega] at this
    rw [this]
  rw [h1, sum_range_succ, sum_congr rfl h3, h2, mul_div_cancel₀ _ (hd i hi)]
  ring

theorem backwardSub_stable (U : ℕ → ℕ → K) (y : ℕ → K) (q m d j : ℕ) (hj : q - m ≤ j) (hm : m + d ≤ q) :
    backwardSub U y q (m + d) j = backwardSub U y q m j := by
  induction d with
  | zero => rfl
  | succ d ih =>
    rw [← add_assoc, backwardSub]
    rw [Function.update_of_ne (by omega), ih (by omega)]

theorem backwardSub_zero (U : ℕ → ℕ → K) (y : ℕ → K) (q m j : ℕ) (hj : j < q - m) : backwardSub U y q m j = 0 := by
  induction m with
  | zero => rfl
  | succ m ih =>
    rw [backwardSub]
    rw [Function.update_of_ne (by omega), ih (by omega)]

/-- **C25** `backward_substitution` solves `U x = y` for an upper triangular `U` with non-zero diagonal. -/
theorem C25_backward (U : ℕ → ℕ → K) (y : ℕ → K) (q : ℕ) (hU : ∀ r c, c < r → r < q → U r c = 0)
    (hd : ∀ i, i < q → U i i ≠ 0) (i : ℕ) (hi : i < q) :
    ∑ j ∈ range q, U i j * backwardSub U y q q j = y i := by
  have h0 : ∑ j ∈ range q, U i j * backwardSub U y q q j = ∑ j ∈ Ico i q, U i j * backwardSub U y q q j := by
    symm
    apply sum_subset
    · intro j hj; simp only [mem_range, mem_Ico] at *; omega
    · intro j hj hj'
      simp only [mem_range, mem_Ico] at hj hj'
      rw [hU i j (by omega) hi, zero_mul]
  have h2 : backwardSub U y q q i =
      (y i - ∑ j ∈ Ico i q, U i j * backwardSub U y q (q - i - 1) j) / U i i := by
    have := backwardSub_stable U y q (q - i - 1 + 1) i i (by omega) (by omega)
    rw [show q - i - 1 + 1 + i = q by omega] at this
    rw [this, backwardSub]
    rw [show q - (q - i - 1 + 1) = i by omega, Function.update_self, pysum_eq, sum_Ico_eq_sum_range]
  have h3 : ∑ j ∈ Ico i q, U i j * backwardSub U y q (q - i - 1) j =
      ∑ j ∈ Ico (i + 1) q, U i j * backwardSub U y q q j := by
    rw [sum_eq_sum_Ico_succ_bot hi, backwardSub_zero U y q _ i (by omega), mul_zero, zero_add]
    apply sum_congr rfl
    intro j hj
    have hj := mem_Ico.1 hj
    have := backwardSub_stable U y q (q - i - 1) (i + 1) j (by omega) (by omega)
    rw [show q - i - 1 + (i + 1) = q by omega] at this
    rw [this]
  rw [h0, sum_eq_sum_Ico_succ_bot hi, h2, h3, mul_div_cancel₀ _ (hd i hi)]
  ring

/-- **C25** decomposition followed by both substitutions solves the system `A x = b`, for every square system
without zero pivot. -/
theorem C25_solve (A : ℕ → ℕ → K) (n : ℕ) (b : ℕ → K) (L U : ℕ → ℕ → K) (h : doolittle A n n = (L, U))
    (hz : ∀ i, i < n → U i i ≠ 0) (r : ℕ) (hr : r < n) :
    ∑ c ∈ range n, A r c * backwardSub U (forwardSub L b n) n n c = b r := by
  obtain ⟨h1, h2, h3, h4⟩ := C25_lu A n L U h
  have hy := C25_forward L b n (fun r c hrc _ => h2 r c hrc) (fun i hi => by rw [h1 i hi]; exact one_ne_zero) r hr
  have hx := C25_backward U (forwardSub L b n) n (fun r c hrc _ => h3 r c hrc) hz
  rw [← hy]
  have e1 : ∀ c ∈ range n, A r c * backwardSub U (forwardSub L b n) n n c =
      ∑ j ∈ range n, L r j * (U j c * backwardSub U (forwardSub L b n) n n c) := by
    intro c hc
    rw [← h4 (fun i hi => hz i (by omega)) r c hr (mem_range.1 hc), sum_mul]
    apply sum_congr rfl
    intro j _
    ring
  rw [sum_congr rfl e1, sum_comm]
  apply sum_congr rfl
  intro j hj
  rw [← mul_sum, hx j (mem_range.1 hj)]

example : ∀ i, i < 2 → (doolittle (fun i j => (([[2, 1], [4, 3]] : List (List ℚ)).getD i []).getD j 0) 2 2).2 i i ≠ 0 := by
  intro i hi
  rcases (by omega : i = 0 ∨ i = 1) with rfl | rfl <;> decide +kernel

end
end Volmdlr
