import Verif.Nurbs.CurveModel
import Mathlib.Data.List.Sort
import Mathlib.Data.List.GetD
import Mathlib.Algebra.BigOperators.Group.List.Basic
import Mathlib.Algebra.Order.Field.Basic
import Mathlib.Tactic.Linarith
import Mathlib.Tactic.Ring
import Mathlib.Tactic.FieldSimp

/-!
# C28: knots and multiplicities as lists
-/

namespace Volmdlr
section
variable {K : Type*} [Field K] [LinearOrder K]

/-- Specification: different knots are more than `tol` apart. -/
def Separated (tol : K) (kv : List K) : Prop := ∀ a ∈ kv, ∀ b ∈ kv, a ≠ b → tol < |a - b|

/-- **C28** `find_multiplicity` counts the knots within the tolerance. -/
theorem C28_multiplicity_countP (tol knot : K) (kv : List K) :
    findMultiplicity tol knot kv = kv.countP (fun k => decide (|knot - k| ≤ tol)) := by
  have h : ∀ (kv : List K) (m : ℕ), kv.foldl (fun mult k => if |knot - k| ≤ tol then mult + 1 else mult) m =
      m + kv.countP (fun k => decide (|knot - k| ≤ tol)) := by
    intro kv
    induction kv with
    | nil => simp
    | cons a t ih =>
      intro m
      rw [List.foldl_cons, ih, List.countP_cons]
      by_cases h : |knot - a| ≤ tol
      · simp [h]; omega
      · simp [h]
  unfold findMultiplicity
  rw [h, zero_add]

theorem count_flatMap_replicate (D : List K) (hD : D.Nodup) (f : K → ℕ) (a : K) :
    (D.flatMap fun k => List.replicate (f k) k).count a = if a ∈ D then f a else 0 := by
  induction D with
  | nil => simp
  | cons d t ih =>
    rw [List.flatMap_cons, List.count_append, ih (List.nodup_cons.1 hD).2, List.count_replicate]
    by_cases h : a = d
    · subst h
      have := (List.nodup_cons.1 hD).1
      simp [this]
    · have : ¬ d = a := fun e => h e.symm
      simp [h, this]

theorem pairwise_flatMap_replicate (D : List K) (hD : D.Pairwise (· ≤ ·)) (f : K → ℕ) :
    (D.flatMap fun k => List.replicate (f k) k).Pairwise (· ≤ ·) := by
  induction D with
  | nil => simp
  | cons d t ih =>
    rw [List.flatMap_cons, List.pairwise_append]
    obtain ⟨h1, h2⟩ := List.pairwise_cons.1 hD
    refine ⟨List.pairwise_replicate.2 (Or.inr (le_refl _)), ih h2, ?_⟩
    intro a ha b hb
    obtain ⟨k, hk, hb⟩ := List.mem_flatMap.1 hb
    rw [List.eq_of_mem_replicate ha, List.eq_of_mem_replicate hb]
    exact h1 k hk

theorem zip_map_flatMap (D : List K) (f : K → ℕ) :
    ((D.zip (D.map f)).flatMap fun km => List.replicate km.2 km.1) = D.flatMap fun k => List.replicate (f k) k := by
  induction D with
  | nil => rfl
  | cons d t ih => simp only [List.map_cons, List.zip_cons_cons, List.flatMap_cons, ih]

variable [IsStrictOrderedRing K]

/-- **C28** for separated knots `find_multiplicity` is the number of occurrences. -/
theorem C28_multiplicity_count (tol : K) (ht : 0 ≤ tol) (x : K) (kv : List K)
    (hs : ∀ a ∈ kv, a ≠ x → tol < |x - a|) : findMultiplicity tol x kv = kv.count x := by
  rw [C28_multiplicity_countP, List.count]
  apply List.countP_congr
  intro a ha
  simp only [decide_eq_true_eq, beq_iff_eq]
  constructor
  · intro h
    by_contra hne
    exact absurd h (not_le.2 (hs a ha hne))
  · rintro rfl; simpa using ht
example : findMultiplicity (1 / 10 ^ 15) (1 / 2) ([0, 0, 1 / 2, 1 / 2, 1] : List ℚ) = 2 := by decide +kernel

/-- **C28** `get_knots_and_multiplicities` followed by `numpy.repeat` gives the knot vector back, for every
sorted knot vector whose distinct knots are more than `tol = 1e-15` apart. -/
theorem C28_round_trip (tol : K) (ht : 0 ≤ tol) (kv : List K) (hs : kv.Pairwise (· ≤ ·)) (hsep : Separated tol kv) :
    repeatKnots (getKnotsAndMultiplicities tol kv).1 (getKnotsAndMultiplicities tol kv).2 = kv := by
  unfold repeatKnots getKnotsAndMultiplicities
  dsimp only
  rw [zip_map_flatMap]
  have hsort : kv.dedup.Pairwise (· ≤ ·) := List.Pairwise.sublist (List.dedup_sublist kv) hs
  apply List.Perm.eq_of_pairwise (le := (· ≤ ·)) (fun a b _ _ => le_antisymm) (pairwise_flatMap_replicate _ hsort _) hs
  rw [List.perm_iff_count]
  intro a
  rw [count_flatMap_replicate _ (List.nodup_dedup kv)]
  by_cases h : a ∈ kv
  · rw [if_pos (List.mem_dedup.2 h), C28_multiplicity_count tol ht a kv]
    intro b hb hne
    exact hsep a h b hb (Ne.symm hne)
  · rw [if_neg (fun h' => h (List.mem_dedup.1 h')), List.count_eq_zero_of_not_mem h]
example : Separated (1 / 10 ^ 15) ([0, 0, 1 / 2, 1 / 2, 1, 1] : List ℚ) := by unfold Separated; decide +kernel
example : repeatKnots (getKnotsAndMultiplicities (1 / 10 ^ 15) ([0, 0, 1 / 2, 1 / 2, 1, 1] : List ℚ)).1
    (getKnotsAndMultiplicities (1 / 10 ^ 15) ([0, 0, 1 / 2, 1 / 2, 1, 1] : List ℚ)).2 = [0, 0, 1 / 2, 1 / 2, 1, 1] := by
  decide +kernel

/-- The unrestricted claim, for the default tolerance. -/
def C28_round_trip_full_statement (K : Type) [Field K] [LinearOrder K] : Prop :=
  ∀ kv : List K, kv.Pairwise (· ≤ ·) →
    repeatKnots (getKnotsAndMultiplicities (1 / 10 ^ 15) kv).1 (getKnotsAndMultiplicities (1 / 10 ^ 15) kv).2 = kv

/-- **C28** knots closer than the tolerance are counted several times each. -/
theorem C28_round_trip_counterexample : ¬ C28_round_trip_full_statement ℚ := by
  intro h
  have := h [0, 1 / 10 ^ 16, 1] (by decide +kernel)
  revert this
  decide +kernel

omit [Field K] [IsStrictOrderedRing K] in
/-- A sorted list is cut by a value into the smaller, the equal and the larger elements. -/
theorem sorted_decomp (kv : List K) (hs : kv.Pairwise (· ≤ ·)) (x : K) :
    kv = kv.filter (fun a => decide (a < x)) ++ List.replicate (kv.count x) x ++ kv.filter (fun a => decide (x < a)) := by
  induction kv with
  | nil => simp
  | cons y t ih =>
    obtain ⟨h1, h2⟩ := List.pairwise_cons.1 hs
    have ih := ih h2
    rcases lt_trichotomy y x with h | h | h
    · have e1 : ¬ x < y := not_lt.2 h.le
      have e2 : (y == x) = false := by simpa using h.ne
      rw [List.filter_cons_of_pos (by simpa using h), List.filter_cons_of_neg (by simpa using e1),
        List.count_cons, e2]
      simp only [List.cons_append, Bool.false_eq_true, if_false, Nat.add_zero]
      rw [← ih]
    · subst h
      have e : t.filter (fun a => decide (a < y)) = [] := by
        rw [List.filter_eq_nil_iff]; intro a ha; simpa using h1 a ha
      rw [List.filter_cons_of_neg (by simp), List.filter_cons_of_neg (by simp), List.count_cons_self, e,
        List.nil_append, List.replicate_succ, List.cons_append]
      rw [e, List.nil_append] at ih
      rw [← ih]
    · have e1 : ¬ y < x := not_lt.2 h.le
      have e : (y :: t).filter (fun a => decide (a < x)) = [] := by
        rw [List.filter_eq_nil_iff]; intro a ha
        rcases List.mem_cons.1 ha with rfl | ha
        · simpa using h.le
        · simpa using h.le.trans (h1 a ha)
      have e' : (y :: t).count x = 0 := by
        rw [List.count_eq_zero]; intro ha
        rcases List.mem_cons.1 ha with rfl | ha
        · exact lt_irrefl _ h
        · exact absurd (h1 x ha) (not_le.2 h)
      rw [e, e', List.replicate_zero, List.nil_append, List.nil_append, eq_comm, List.filter_eq_self]
      intro a ha
      rcases List.mem_cons.1 ha with rfl | ha
      · simpa using h
      · simpa using h.trans_le (h1 a ha)

end
section
variable {K : Type*} [Field K] [LinearOrder K]

theorem kvFun_lt (kv : List K) (i : ℕ) (h : i < kv.length) : kvFun kv i = kv[i] := by
  unfold kvFun; rw [List.getD_eq_getElem _ _ h]
theorem kvFun_ge (kv : List K) (i : ℕ) (h : kv.length ≤ i) : kvFun kv i = kv.getLastD 0 := by
  unfold kvFun; rw [List.getD_eq_default _ _ h]
theorem kvFun_last (kv : List K) (i : ℕ) (h : kv.length ≤ i + 1) (h0 : kv ≠ []) : kvFun kv i = kv.getLast h0 := by
  have h0' : 0 < kv.length := List.length_pos_iff.2 h0
  rcases Nat.lt_or_ge i kv.length with h' | h'
  · rw [kvFun_lt kv i h', List.getLast_eq_getElem]
    congr 1; omega
  · rw [kvFun_ge kv i h', List.getLastD_eq_getLast?, List.getLast?_eq_getLast_of_ne_nil h0]; rfl

theorem kvFun_mono (kv : List K) (hs : kv.Pairwise (· ≤ ·)) : Monotone (kvFun kv) := by
  apply monotone_nat_of_le_succ
  intro i
  rcases Nat.lt_or_ge (i + 1) kv.length with h | h
  · rw [kvFun_lt kv i (by omega), kvFun_lt kv (i + 1) h]
    exact List.pairwise_iff_getElem.1 hs i (i + 1) (by omega) h (by omega)
  · rcases eq_or_ne kv [] with h0 | h0
    · subst h0; simp [kvFun]
    · rw [kvFun_last kv i h h0, kvFun_last kv (i + 1) (by omega) h0]

theorem kvFun_append_left (A B : List K) (i : ℕ) (h : i < A.length) : kvFun (A ++ B) i = A[i] := by
  rw [kvFun_lt _ _ (by simp; omega), List.getElem_append_left h]
theorem kvFun_append_right (A B : List K) (hB : B ≠ []) (i : ℕ) (h : A.length ≤ i) :
    kvFun (A ++ B) i = kvFun B (i - A.length) := by
  rcases Nat.lt_or_ge i (A.length + B.length) with h' | h'
  · rw [kvFun_lt _ _ (by simp; omega), kvFun_lt _ _ (by omega), List.getElem_append_right h]
  · have hne : A ++ B ≠ [] := by simp [hB]
    rw [kvFun_last _ _ (by simp; omega) hne, kvFun_last _ _ (by omega) hB, List.getLast_append_of_ne_nil _ hB]

/-- The knot function of the vector with inserted knots. -/
theorem kvFun_insert (kv : List K) (x : K) (k num : ℕ) (hk : k + 1 < kv.length) (i : ℕ) :
    kvFun (knotInsertionKv kv x k num) i =
      if i ≤ k then kvFun kv i else if i ≤ k + num then x else kvFun kv (i - num) := by
  have hB : kv.drop (k + 1) ≠ [] := by
    intro h; have := congrArg List.length h; simp at this; omega
  have hl : (kv.take (k + 1)).length = k + 1 := by rw [List.length_take]; omega
  unfold knotInsertionKv
  split_ifs with h1 h2
  · rw [List.append_assoc, kvFun_append_left _ _ _ (by omega), kvFun_lt kv i (by omega), List.getElem_take]
  · rw [kvFun_append_left _ _ _ (by simp; omega), List.getElem_append_right (by omega), List.getElem_replicate]
  · rw [kvFun_append_right _ _ hB _ (by simp; omega)]
    have e : kv = kv.take (k + 1) ++ kv.drop (k + 1) := (List.take_append_drop _ _).symm
    conv_rhs => rw [e]
    rw [kvFun_append_right _ _ hB _ (by omega)]
    congr 1; simp; omega

/-- Where the copies of a knot are in a sorted vector. -/
theorem mult_positions (kv : List K) (hs : kv.Pairwise (· ≤ ·)) (x : K) (k : ℕ) (hk : k + 1 < kv.length)
    (h1 : kvFun kv k ≤ x) (h2 : x < kvFun kv (k + 1)) (h0 : kvFun kv 0 < x) :
    kv.count x ≤ k ∧ (∀ i, k < i + kv.count x → i ≤ k → kvFun kv i = x) ∧ kvFun kv (k - kv.count x) < x := by
  set A := kv.filter (fun a => decide (a < x)) with hA
  set B := kv.filter (fun a => decide (x < a)) with hB
  set s := kv.count x with hsd
  have hd : kv = A ++ List.replicate s x ++ B := sorted_decomp kv hs x
  have hlen : kv.length = A.length + s + B.length := by
    have := congrArg List.length hd
    simp only [List.length_append, List.length_replicate] at this
    exact this
  have hAm : ∀ a ∈ A, a < x := fun a ha => by simpa using (List.mem_filter.1 ha).2
  have hBm : ∀ a ∈ B, x < a := fun a ha => by simpa using (List.mem_filter.1 ha).2
  have hAx : ∀ i (h : i < A.length), kvFun kv i < x := by
    intro i h
    rw [hd, List.append_assoc, kvFun_append_left _ _ _ h]
    exact hAm _ (List.getElem_mem h)
  have hMx : ∀ i, A.length ≤ i → i < A.length + s → kvFun kv i = x := by
    intro i h h'
    rw [hd, kvFun_append_left _ _ _ (by simpa using h'), List.getElem_append_right h, List.getElem_replicate]
  have hBx : ∀ i, A.length + s ≤ i → i < kv.length → x < kvFun kv i := by
    intro i h h'
    have h3 : i - (A ++ List.replicate s x).length < B.length := by simp; omega
    have e : kvFun kv i = B[i - (A ++ List.replicate s x).length] := by
      rw [kvFun_lt kv i h']
      have := List.getElem_append_right (as := A ++ List.replicate s x) (bs := B) (i := i)
        (h₁ := by simpa using h) (h₂ := by simp; omega)
      rw [← this]
      congr 1
    rw [e]
    exact hBm _ (List.getElem_mem h3)
  have hAl : 0 < A.length := by
    by_contra hc
    rcases Nat.eq_zero_or_pos s with h | h
    · exact absurd (hBx 0 (by omega) (by omega)) (not_lt.2 h0.le)
    · exact absurd (hMx 0 (by omega) (by omega)) h0.ne
  have hk1 : k < A.length + s := by
    by_contra hc
    exact absurd (hBx k (by omega) (by omega)) (not_lt.2 h1)
  have hk2 : A.length + s ≤ k + 1 := by
    by_contra hc
    rcases Nat.lt_or_ge (k + 1) A.length with h | h
    · exact absurd (hAx _ h) (not_lt.2 h2.le)
    · exact absurd (hMx (k + 1) h (by omega)) h2.ne'
  refine ⟨by omega, ?_, hAx _ (by omega)⟩
  intro i h3 h4
  exact hMx i (by omega) (by omega)

end
end Volmdlr
