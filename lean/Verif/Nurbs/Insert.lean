import Verif.Nurbs.Boehm
import Mathlib.Data.List.Sort

/-!
# C22: `knot_insertion` refines Boehm's algorithm
-/

namespace Volmdlr
section
variable {K : Type*} [Field K] [LinearOrder K] {V : Type*} [AddCommGroup V] [Module K V]

section facts
variable (U : ℕ → K) (k : ℕ) (x : K) (p s num : ℕ) (P : ℕ → V)

theorem insPtsN_low (j i : ℕ) (h : i + p ≤ k + j) : insPtsN U k x p P (j + 1) i = insPtsN U k x p P j i := by
  simp only [insPtsN, insPts, insAlpha, if_pos h, one_smul, sub_self, zero_smul, add_zero]

theorem insPtsN_low_many (j d i : ℕ) (h : i + p ≤ k + j) : insPtsN U k x p P (j + d) i = insPtsN U k x p P j i := by
  induction d with
  | zero => rfl
  | succ d ih => rw [← add_assoc, insPtsN_low U k x p P (j + d) i (by omega), ih]

theorem insPtsN_high (hm : ∀ i, k < i + s → i ≤ k → U i = x) (j i : ℕ) (hj : j + 1 + s ≤ p) (h : k < i + s) :
    insPtsN U k x p P (j + 1) i = insPtsN U k x p P j (i - 1) := by
  have hα : insAlpha (insKnotsN U k x j) (k + j) x p i = 0 := by
    rw [insAlpha, if_neg (by omega)]
    split
    · have : insKnotsN U k x j i = x := by
        unfold insKnotsN
        split
        · exact hm i h ‹_›
        · rfl
      rw [this, sub_self, zero_div]
    · rfl
  simp only [insPtsN, insPts, hα, zero_smul, sub_zero, one_smul, zero_add]

theorem insPtsN_high_many (hm : ∀ i, k < i + s → i ≤ k → U i = x) (j d i : ℕ) (hj : j + d + s ≤ p)
    (h : k + d ≤ i + s) :
    insPtsN U k x p P (j + d) i = insPtsN U k x p P j (i - d) := by
  induction d generalizing i with
  | zero => rfl
  | succ d ih =>
    rw [← add_assoc, insPtsN_high U k x p s P hm (j + d) i (by omega) (by omega), ih (i - 1) (by omega) (by omega)]
    congr 1; omega

theorem insPtsN_mid (j i : ℕ) (h1 : k + j < i + p) (h2 : i ≤ k) :
    insPtsN U k x p P (j + 1) i = ((x - U i) / (U (i + p - j) - U i)) • insPtsN U k x p P j i +
      (1 - (x - U i) / (U (i + p - j) - U i)) • insPtsN U k x p P j (i - 1) := by
  have e1 : insKnotsN U k x j i = U i := by unfold insKnotsN; rw [if_pos h2]
  have e2 : insKnotsN U k x j (i + p) = U (i + p - j) := by
    unfold insKnotsN
    by_cases h : i + p ≤ k
    · rw [if_pos h]
      have : j = 0 := by omega
      subst this; rfl
    · rw [if_neg h, if_neg (by omega)]
  have hα : insAlpha (insKnotsN U k x j) (k + j) x p i = (x - U i) / (U (i + p - j) - U i) := by
    rw [insAlpha, if_neg (by omega), if_pos (by omega), e1, e2]
  simp only [insPtsN, insPts, hα]
end facts

theorem insTemp_spec (u : K) (U : ℕ → K) (span leg : ℕ) (temp : ℕ → V) (m : ℕ) :
    (∀ t, t < m → insTemp u U span leg temp m t =
      knotInsertionAlpha u U span t leg • temp (t + 1) + (1 - knotInsertionAlpha u U span t leg) • temp t) ∧
    (∀ t, m ≤ t → insTemp u U span leg temp m t = temp t) := by
  induction m with
  | zero => exact ⟨fun t h => by omega, fun t _ => rfl⟩
  | succ m ih =>
    constructor
    · intro t ht
      simp only [insTemp]
      rcases Nat.lt_succ_iff_lt_or_eq.1 ht with h | h
      · rw [Function.update_of_ne (by omega)]; exact ih.1 t h
      · subst h
        rw [Function.update_self, ih.2 t (le_refl _), ih.2 (t + 1) (by omega)]
    · intro t ht
      simp only [insTemp]
      rw [Function.update_of_ne (by omega)]; exact ih.2 t (by omega)

/-- The loop of `knot_insertion`: contents of `temp` and of `ctrlpts_new` after `j` rounds. -/
theorem insLoop_spec (U : ℕ → K) (k : ℕ) (x : K) (p s num n : ℕ) (P : ℕ → V) (hk : p ≤ k) (hkn : k < n)
    (hns : num + s ≤ p) (hm : ∀ i, k < i + s → i ≤ k → U i = x) (temp : ℕ → V) (new : List V)
    (ht : ∀ i, i + s ≤ p → temp i = P (k - p + i)) (hl : new.length = n + num)
    (hn1 : ∀ i, i + p ≤ k → new.getD i 0 = P i)
    (hn2 : ∀ i, k + num ≤ i + s → i < n + num → new.getD i 0 = P (i - num)) (j : ℕ) (hj : j ≤ num) :
    (∀ i, i + j + s ≤ p → (insLoop p U x num s k temp new j).1 i = insPtsN U k x p P j (k - p + j + i)) ∧
    (insLoop p U x num s k temp new j).2.length = n + num ∧
    (∀ i, i < n + num → (i + p ≤ k + j ∨ k + num ≤ i + j + s) →
      (insLoop p U x num s k temp new j).2.getD i 0 = insPtsN U k x p P num i) := by
  induction j with
  | zero =>
    refine ⟨fun i hi => ht i (by omega), hl, ?_⟩
    intro i hi h
    simp only [insLoop]
    rcases h with h | h
    · rw [hn1 i (by omega)]
      have := insPtsN_low_many U k x p P 0 num i (by omega)
      rw [zero_add] at this
      rw [this]; rfl
    · rw [hn2 i (by omega) hi]
      have := insPtsN_high_many U k x p s P hm 0 num i (by omega) (by omega)
      rw [zero_add] at this
      rw [this]; rfl
  | succ j ih =>
    obtain ⟨h1, h2, h3⟩ := ih (by omega)
    have htemp : ∀ i, i + (j + 1) + s ≤ p →
        insTemp x U k (k - p + (j + 1)) (insLoop p U x num s k temp new j).1 (p + 1 - (j + 1) - s) i =
          insPtsN U k x p P (j + 1) (k - p + (j + 1) + i) := by
      intro i hi
      rw [(insTemp_spec x U k (k - p + (j + 1)) _ _).1 i (by omega), h1 (i + 1) (by omega), h1 i (by omega),
        insPtsN_mid U k x p P j (k - p + (j + 1) + i) (by omega) (by omega)]
      unfold knotInsertionAlpha
      rw [show k - p + (j + 1) + i + p - j = i + k + 1 by omega, show k - p + j + (i + 1) = k - p + (j + 1) + i by omega,
        show k - p + (j + 1) + i - 1 = k - p + j + i by omega]
    refine ⟨?_, ?_, ?_⟩
    · intro i hi
      simp only [insLoop]
      exact htemp i (by omega)
    · simp only [insLoop, List.length_set]; exact h2
    · intro i hi h
      simp only [insLoop]
      rw [htemp 0 (by omega), htemp (p - (j + 1) - s) (by omega)]
      have v1 : insPtsN U k x p P (j + 1) (k - p + (j + 1) + 0) = insPtsN U k x p P num (k - p + (j + 1)) := by
        have := insPtsN_low_many U k x p P (j + 1) (num - (j + 1)) (k - p + (j + 1)) (by omega)
        rw [show j + 1 + (num - (j + 1)) = num by omega] at this
        rw [this]; rfl
      have v2 : insPtsN U k x p P (j + 1) (k - p + (j + 1) + (p - (j + 1) - s)) =
          insPtsN U k x p P num (k + num - (j + 1) - s) := by
        have := insPtsN_high_many U k x p s P hm (j + 1) (num - (j + 1)) (k + num - (j + 1) - s) (by omega) (by omega)
        rw [show j + 1 + (num - (j + 1)) = num by omega] at this
        rw [this]; congr 1; omega
      rw [v1, v2, List.getD_eq_getElem?_getD]
      by_cases e2 : k + num - (j + 1) - s = i
      · subst e2
        rw [List.getElem?_set_self (by simp only [List.length_set]; omega)]; rfl
      · rw [List.getElem?_set_ne e2]
        by_cases e1 : k - p + (j + 1) = i
        · subst e1
          rw [List.getElem?_set_self (by omega)]; rfl
        · rw [List.getElem?_set_ne e1, ← List.getD_eq_getElem?_getD]
          apply h3 i hi
          omega

theorem sliceAssign_length {α : Type*} (l : List α) (a b : ℕ) (r : List α) (ha : a ≤ l.length) :
    (sliceAssign l a b r).length = a + r.length + (l.length - max a b) := by
  simp [sliceAssign, List.length_take, List.length_drop, Nat.min_eq_left ha, add_assoc]

/-- **C22** what `knot_insertion` returns: the points `Q_0, …, Q_{k-s}` of Boehm's algorithm, followed by the
others; when `num + s < degree` the point `Q_{k-s}` is there twice. -/
theorem knotInsertion_eq (p : ℕ) (kv : List K) (cp : List V) (x : K) (num s k : ℕ) (hk : p ≤ k)
    (hkn : k < cp.length) (hnum : 0 < num) (hns : num + s ≤ p) (hm : ∀ i, k < i + s → i ≤ k → kvFun kv i = x) :
    knotInsertion p kv cp x num s k =
      (List.range (k - s + 1)).map (insPtsN (kvFun kv) k x p (cpFun cp) num) ++
      ((List.range (cp.length + num)).map (insPtsN (kvFun kv) k x p (cpFun cp) num)).drop
        (if num + s < p then k - s else k - s + 1) := by
  set U := kvFun kv with hU
  set P := cpFun cp with hP
  set n := cp.length with hn
  unfold knotInsertion
  dsimp only
  set new1 := sliceAssign (List.replicate (cp.length + num) (0 : V)) 0 (k - p + 1) (cp.take (k - p + 1)) with hnew1
  have hl1 : new1.length = n + num := by
    rw [hnew1, sliceAssign_length _ _ _ _ (by omega)]
    simp only [List.length_take, List.length_replicate]; omega
  set new2 := sliceAssign new1 (k - s + num) new1.length (cp.drop (k - s)) with hnew2
  have hl2 : new2.length = n + num := by
    rw [hnew2, sliceAssign_length _ _ _ _ (by omega), hl1]
    simp only [List.length_drop]; omega
  obtain ⟨h1, h2, h3⟩ := insLoop_spec U k x p s num n P hk hkn hns hm
    (fun i => if i < p - s + 1 then cpFun cp (k - p + i) else 0) new2
    (by intro i hi; rw [if_pos (by omega)])
    hl2
    (by
      intro i hi
      rw [hnew2, sliceAssign, List.append_assoc, List.getD_append _ _ _ _ (by simp only [List.length_take]; omega),
        List.getD_eq_getElem?_getD, List.getElem?_take_of_lt (by omega), hnew1, sliceAssign, List.take_zero,
        List.nil_append, List.getElem?_append_left (by simp only [List.length_take]; omega),
        List.getElem?_take_of_lt (by omega), ← List.getD_eq_getElem?_getD]
      rfl)
    (by
      intro i hi hi2
      rw [hnew2, sliceAssign, List.append_assoc, List.getD_append_right _ _ _ _ (by simp only [List.length_take]; omega)]
      simp only [List.length_take, hl1]
      rw [Nat.min_eq_left (by omega), List.getD_append _ _ _ _ (by simp only [List.length_drop]; omega),
        List.getD_eq_getElem?_getD, List.getElem?_drop, ← List.getD_eq_getElem?_getD]
      show cp.getD _ 0 = cp.getD _ 0
      congr 1; omega)
    num (le_refl _)
  set st := insLoop p U x num s k (fun i => if i < p - s + 1 then cpFun cp (k - p + i) else 0) new2 num with hst
  set Q := insPtsN U k x p P num with hQ
  have hmap : (List.range (k - s - (k - p + num))).map (fun i => st.1 (i + 1)) =
      (List.range (k - s - (k - p + num))).map fun i => Q (k - p + num + (i + 1)) := by
    apply List.map_congr_left
    intro i hi
    have := List.mem_range.1 hi
    exact h1 (i + 1) (by omega)
  rw [hmap]
  -- compare element by element
  apply List.ext_getElem?
  intro i
  have hlenL : (sliceAssign st.2 (k - p + num + 1) (k - s)
      ((List.range (k - s - (k - p + num))).map fun i => Q (k - p + num + (i + 1)))).length =
      k - s + 1 + (n + num - (if num + s < p then k - s else k - s + 1)) := by
    rw [sliceAssign_length _ _ _ _ (by omega), h2]
    simp only [List.length_map, List.length_range]
    split <;> omega
  by_cases hi : i < k - s + 1 + (n + num - (if num + s < p then k - s else k - s + 1))
  · have hr : ((List.range (k - s + 1)).map Q ++ ((List.range (n + num)).map Q).drop
        (if num + s < p then k - s else k - s + 1))[i]? =
        some (Q (if i < k - s + 1 then i else i - (k - s + 1) + (if num + s < p then k - s else k - s + 1))) := by
      by_cases h : i < k - s + 1
      · rw [if_pos h, List.getElem?_append_left (by simpa using h), List.getElem?_map, List.getElem?_range h]; rfl
      · rw [if_neg h, List.getElem?_append_right (by simpa using h), List.getElem?_drop, List.getElem?_map]
        simp only [List.length_map, List.length_range]
        rw [List.getElem?_range (by omega)]
        simp only [Option.map_some]
        congr 2
        omega
    rw [hr]
    unfold sliceAssign
    rw [List.append_assoc]
    by_cases c1 : i < k - p + num + 1
    · rw [List.getElem?_append_left (by simp only [List.length_take]; omega), List.getElem?_take_of_lt c1]
      have := h3 i (by omega) (Or.inl (by omega))
      rw [List.getD_eq_getElem?_getD, List.getElem?_eq_getElem (by omega), Option.getD_some] at this
      rw [List.getElem?_eq_getElem (by omega), this, if_pos (by omega)]
    · rw [List.getElem?_append_right (by simp only [List.length_take]; omega)]
      simp only [List.length_take, h2]
      rw [Nat.min_eq_left (by omega)]
      by_cases c2 : i < k - s + 1
      · rw [List.getElem?_append_left (by simp only [List.length_map, List.length_range]; omega), List.getElem?_map,
          List.getElem?_range (by omega), if_pos c2]
        simp only [Option.map_some]
        congr 2
        omega
      · rw [List.getElem?_append_right (by simp only [List.length_map, List.length_range]; omega), List.getElem?_drop,
          if_neg c2]
        simp only [List.length_map, List.length_range]
        have hidx : max (k - p + num + 1) (k - s) + (i - (k - p + num + 1) - (k - s - (k - p + num))) =
            i - (k - s + 1) + (if num + s < p then k - s else k - s + 1) := by split <;> omega
        rw [hidx]
        have hi2 : i - (k - s + 1) + (if num + s < p then k - s else k - s + 1) < n + num := by split at hi <;> split <;> omega
        have := h3 (i - (k - s + 1) + (if num + s < p then k - s else k - s + 1)) hi2 (Or.inr (by split <;> omega))
        rw [List.getD_eq_getElem?_getD, List.getElem?_eq_getElem (by omega), Option.getD_some] at this
        rw [List.getElem?_eq_getElem (by omega), this]
  · rw [List.getElem?_eq_none (by omega), List.getElem?_eq_none (by
      simp only [List.length_append, List.length_map, List.length_range, List.length_drop]; omega)]
end
end Volmdlr
