import Verif.Unwrap.Props

/-!
# C170: the discretization points are made continuous
-/

namespace Volmdlr.Unwrap

variable {K : Type} [Field K] [LinearOrder K] [IsStrictOrderedRing K]

/-- The points, the first `j` of them with their continuous angle. -/
def mixed (points : List (V2 K)) (t : ℕ → K) (j : ℕ) : List (V2 K) :=
  points.zipIdx.map fun (q : V2 K × ℕ) => if q.2 < j then ⟨t q.2, q.1.y⟩ else q.1

omit [Field K] [IsStrictOrderedRing K] [LinearOrder K] in
lemma mixed_length (points : List (V2 K)) (t : ℕ → K) (j : ℕ) : (mixed points t j).length = points.length := by simp [mixed]

omit [Field K] [IsStrictOrderedRing K] [LinearOrder K] in
lemma mixed_get (points : List (V2 K)) (t : ℕ → K) (j i : ℕ) :
    (mixed points t j)[i]? = (points[i]?).map fun p => if i < j then ⟨t i, p.y⟩ else p := by
  simp [mixed, List.getElem?_zipIdx, Option.map_map, Function.comp_def]

omit [Field K] [IsStrictOrderedRing K] [LinearOrder K] in
lemma mixed_zero (points : List (V2 K)) (t : ℕ → K) : mixed points t 0 = points := by
  apply List.ext_getElem?
  intro i
  rw [mixed_get]
  simp

variable {pi : K} {points : List (V2 K)} {t : ℕ → K} {m : ℕ → ℤ}

/-- The abscissas. -/
def xs (points : List (V2 K)) : List K := points.map fun (p : V2 K) => p.x

omit [IsStrictOrderedRing K] [LinearOrder K] in
lemma xs_getD (points : List (V2 K)) (i : ℕ) (p : V2 K) (h : points[i]? = some p) : (xs points).getD i 0 = p.x := by
  simp [xs, List.getD, h]

omit [IsStrictOrderedRing K] in
lemma mixed_x (j : ℕ) {i : ℕ} (hi : i < points.length) :
    (xs (mixed points t j)).getD i 0 = if i < j then t i else (xs points).getD i 0 := by
  have h1 : points[i]? = some points[i] := List.getElem?_eq_getElem hi
  rw [xs_getD points i _ h1]
  rw [xs_getD _ i (if i < j then ⟨t i, points[i].y⟩ else points[i]) (by rw [mixed_get, h1]; rfl)]
  split_ifs <;> rfl

lemma xs_length (points : List (V2 K)) : (xs points).length = points.length := by simp [xs]

/-- The discontinuities of a list partly made continuous are those of the part which is left. -/
lemma disc_mixed (h : Samples pi (xs points) t m) {j : ℕ} (hj : j < points.length → m j = 0) (i : ℕ) :
    i ∈ discontinuities pi (xs (mixed points t j)) ↔ ∃ k, i = k + 1 ∧ k + 1 < points.length ∧ j ≤ k ∧ m (k + 1) ≠ m k := by
  have hl := xs_length points
  rw [mem_discontinuities, xs_length, mixed_length]
  have hval : ∀ {i : ℕ}, i < points.length → t i = (xs points).getD i 0 + 2 * pi * (m i : K) ∧ |(xs points).getD i 0| ≤ pi :=
    fun {i} hi => h.values (by omega)
  constructor
  · rintro ⟨h1, h2, h3, h4⟩
    obtain ⟨k, rfl⟩ : ∃ k, i = k + 1 := ⟨i - 1, by omega⟩
    rw [Nat.add_sub_cancel, mixed_x j h2, mixed_x j (by omega)] at h3
    rw [Nat.add_sub_cancel, mixed_x j h2, mixed_x j (by omega)] at h4
    have hnear := h.near k (by omega)
    by_cases hk : j ≤ k
    · refine ⟨k, rfl, h2, hk, ?_⟩
      rw [if_neg (by omega), if_neg (by omega)] at h3 h4
      have := (flag_iff h.turn (hval (i := k) (by omega)).2 (hval h2).2 (h.step (i := k) (by omega))).mp ⟨h3, h4⟩
      intro hc
      exact this (by omega)
    · exfalso
      have e : (if k + 1 < j then t (k + 1) else (xs points).getD (k + 1) 0) = t (k + 1) := by
        split_ifs with hc
        · rfl
        · have : k + 1 = j := by omega
          have h0 := hj (by omega)
          rw [(hval h2).1, this, h0]
          simp
      rw [if_pos (show k < j by omega), e] at h3 h4
      rw [wraps_small h.turn hnear h3] at h4
      cases h4
  · rintro ⟨k, rfl, h2, h3, h4⟩
    refine ⟨by omega, h2, ?_⟩
    rw [Nat.add_sub_cancel, mixed_x j h2, mixed_x j (by omega), if_neg (by omega), if_neg (by omega)]
    exact (flag_iff h.turn (hval (i := k) (by omega)).2 (hval h2).2 (h.step (i := k) (by omega))).mpr (by omega)

omit [IsStrictOrderedRing K] in
lemma disc_sorted (l : List K) : (discontinuities pi l).Pairwise (· < ·) := by
  unfold discontinuities signChanges
  exact (List.pairwise_lt_range.filter _).filter _

/-- No change of the number of turns between two positions. -/
lemma constant {a b : ℕ} (h : ∀ k, a ≤ k → k < b → m (k + 1) = m k) : ∀ i, a ≤ i → i ≤ b → m i = m a := by
  intro i hi
  induction i, hi using Nat.le_induction with
  | base => intro _; rfl
  | succ n hn ih =>
    intro hb
    rw [h n hn (by omega), ih (by omega)]

/-- Shifting the part of the points between two positions, where the number of turns is constant. -/
lemma shift_part (h : Samples pi (xs points) t m) {j k j' : ℕ} (hk : j ≤ k) (hkj : k + 1 ≤ j') (hkn : k + 1 < points.length)
    (hj : j < points.length → m j = 0) (hne : m (k + 1) ≠ m k) (hconst : ∀ i, j ≤ i → i < k → m (i + 1) = m i)
    (hconst' : ∀ i, k + 1 ≤ i → i + 1 < j' → i + 1 < points.length → m (i + 1) = m i) :
    (helperFix pi true ((mixed points t j).take j') (k + 1)).map (fun l => l ++ (mixed points t j).drop j') = some (mixed points t j') := by
  have hval : ∀ {i : ℕ}, i < points.length → t i = (xs points).getD i 0 + 2 * pi * (m i : K) ∧ |(xs points).getD i 0| ≤ pi :=
    fun {i} hi => h.values (by rw [xs_length]; omega)
  have hm0 : ∀ i, j ≤ i → i ≤ k → m i = 0 := by
    intro i h1 h2
    rw [constant (a := j) (b := k) hconst i h1 h2, hj (by omega)]
  have hs : ∀ i, k + 1 ≤ i → i < j' → i < points.length → m i = m (k + 1) := by
    intro i h1 h2 h3
    exact constant (a := k + 1) (b := i) (fun q q1 q2 => hconst' q q1 (by omega) (by omega)) i h1 le_rfl
  have hpk : points[k]? = some points[k] := List.getElem?_eq_getElem (by omega)
  have hxk := xs_getD points k _ hpk
  have hpk1 : points[k + 1]? = some points[k + 1] := List.getElem?_eq_getElem hkn
  have hxk1 := xs_getD points (k + 1) _ hpk1
  have hat : ((mixed points t j).take j').getD k ⟨0, 0⟩ = points[k] := by
    rw [List.getD, List.getElem?_take, if_pos (by omega), mixed_get, hpk, Option.map_some, if_neg (by omega)]
    rfl
  have hsign : points[k].x ≠ 0 ∧ signOf points[k].x = (m (k + 1) : K) := by
    rcases turn_cases h.turn (hval (i := k) (by omega)).2 (hval hkn).2 (h.step (i := k) (by rw [xs_length]; omega)) with hc | ⟨hc, h1, h2⟩ | ⟨hc, h1, h2⟩
    · exact absurd (show m (k + 1) = m k by omega) hne
    · rw [hm0 k hk le_rfl, sub_zero] at hc
      rw [hxk] at h1
      refine ⟨h1.ne', ?_⟩
      unfold signOf
      rw [if_pos h1, hc]
      simp
    · rw [hm0 k hk le_rfl, sub_zero] at hc
      rw [hxk] at h1
      refine ⟨h1.ne, ?_⟩
      unfold signOf
      rw [if_neg (not_lt.mpr h1.le), hc]
      simp
  unfold helperFix
  dsimp only
  rw [Nat.add_sub_cancel, hat]
  have hcx : coord true points[k] = points[k].x := rfl
  rw [hcx, if_neg hsign.1, hsign.2, Option.map_some]
  congr 1
  apply List.ext_getElem?
  intro i
  rw [mixed_get]
  by_cases hi : i < points.length
  · have hpi : points[i]? = some points[i] := List.getElem?_eq_getElem hi
    have hxi := xs_getD points i _ hpi
    by_cases hij : i < j'
    · rw [List.getElem?_append_left (by simp [mixed_length]; omega), List.getElem?_map, List.getElem?_zipIdx, List.getElem?_take, if_pos hij, mixed_get, hpi]
      simp only [Option.map_some, Nat.zero_add, if_pos hij]
      congr 1
      have hv := (hval hi).1
      rw [hxi] at hv
      by_cases hik : k + 1 ≤ i
      · rw [if_pos hik, if_neg (show ¬ i < j by omega)]
        unfold shift
        simp only [if_true, V2.mk.injEq, and_true]
        rw [hv, hs i hik hij hi]
        ring
      · rw [if_neg hik]
        split_ifs with hc
        · rfl
        · rw [hm0 i (by omega) (by omega)] at hv
          ext
          · simp [hv]
          · rfl
    · rw [List.getElem?_append_right (by simp [mixed_length]; omega), List.getElem?_drop]
      have : j' + (i - (List.map (fun (q : V2 K × ℕ) => if k + 1 ≤ q.2 then shift true ((m (k + 1) : K) * (2 * pi)) q.1 else q.1)
          (List.take j' (mixed points t j)).zipIdx).length) = i := by
        simp [mixed_length]
        omega
      rw [this, mixed_get, hpi]
      simp only [Option.map_some, if_neg hij]
      rw [if_neg (by omega)]
  · have hpi : points[i]? = none := List.getElem?_eq_none (by omega)
    rw [hpi, Option.map_none]
    apply List.getElem?_eq_none
    simp [mixed_length]
    omega

omit [IsStrictOrderedRing K] in
lemma fixStep_nil (l : List (V2 K)) (i : ℕ) :
    fixStep pi true l i [] = (helperFix pi true (l.take l.length) i).map (fun r => r ++ l.drop l.length) := by
  unfold fixStep
  rw [List.take_length, List.drop_length]
  simp

/-- One turn of the loop. -/
lemma step_spec (h : Samples pi (xs points) t m) (hm : ∀ i, i < points.length → |m i| ≤ 1) {j : ℕ} (hj : j < points.length → m j = 0)
    {index : ℕ} {rest : List ℕ} (hd : discontinuities pi (xs (mixed points t j)) = index :: rest) :
    ∃ j', j < j' ∧ j' ≤ points.length ∧ (j' < points.length → m j' = 0) ∧ fixStep pi true (mixed points t j) index rest = some (mixed points t j') ∧
      (rest = [] → j' = points.length) := by
  have hmem := disc_mixed h hj
  have hsort := disc_sorted (pi := pi) (xs (mixed points t j))
  rw [hd] at hmem hsort
  obtain ⟨k, rfl, hkn, hjk, hne⟩ := (hmem index).mp (by simp)
  have hbefore : ∀ i, j ≤ i → i < k → m (i + 1) = m i := by
    intro i h1 h2
    by_contra hc
    have h3 := (hmem (i + 1)).mpr ⟨i, rfl, by omega, h1, hc⟩
    rcases List.mem_cons.mp h3 with h4 | h4
    · omega
    · have := (List.pairwise_cons.mp hsort).1 _ h4
      omega
  cases rest with
  | nil =>
    refine ⟨points.length, by omega, le_rfl, fun hc => absurd hc (lt_irrefl _), ?_, fun _ => rfl⟩
    rw [fixStep_nil, mixed_length]
    apply shift_part h hjk (by omega) hkn hj hne hbefore
    intro i h1 _ h2
    by_contra hc
    have h3 := (hmem (i + 1)).mpr ⟨i, rfl, h2, by omega, hc⟩
    simp at h3
    omega
  | cons next more =>
    have hlt : k + 1 < next := (List.pairwise_cons.mp hsort).1 _ (by simp)
    obtain ⟨k2, rfl, hkn2, hjk2, hne2⟩ := (hmem next).mp (by simp)
    have hbetween : ∀ i, k + 1 ≤ i → i < k2 → m (i + 1) = m i := by
      intro i h1 h2
      by_contra hc
      have h3 := (hmem (i + 1)).mpr ⟨i, rfl, by omega, by omega, hc⟩
      rcases List.mem_cons.mp h3 with h4 | h4
      · omega
      · rcases List.mem_cons.mp h4 with h5 | h5
        · omega
        · have := (List.pairwise_cons.mp (List.pairwise_cons.mp hsort).2).1 _ h5
          omega
    refine ⟨k2 + 1, by omega, by omega, fun _ => ?_, ?_, by simp⟩
    · have h1 : m k2 = m (k + 1) := constant (a := k + 1) (b := k2) hbetween k2 (by omega) le_rfl
      have hk0 : m k = 0 := by
        rw [constant (a := j) (b := k) hbefore k hjk le_rfl, hj (by omega)]
      have a1 := abs_le.mp (hm k2 (by omega))
      have a2 := abs_le.mp (hm (k2 + 1) hkn2)
      have a3 : m (k + 1) ≠ 0 := by rw [← hk0]; exact hne
      have h2 := turn_cases h.turn (h.values (i := k2) (by rw [xs_length]; omega)).2 (h.values (i := k2 + 1) (by rw [xs_length]; omega)).2
        (h.step (i := k2) (by rw [xs_length]; omega))
      rcases h2 with h2 | ⟨h2, _⟩ | ⟨h2, _⟩ <;> omega
    · unfold fixStep
      dsimp only
      apply shift_part h hjk (by omega) hkn hj hne hbefore
      intro i h1 h2 _
      exact hbetween i h1 (by omega)

/-- Nothing left: the points are those with the continuous angle. -/
lemma done_spec (h : Samples pi (xs points) t m) {j : ℕ} (hj : j < points.length → m j = 0)
    (hd : discontinuities pi (xs (mixed points t j)) = []) : mixed points t j = mixed points t points.length := by
  have hmem := disc_mixed h hj
  rw [hd] at hmem
  apply List.ext_getElem?
  intro i
  rw [mixed_get, mixed_get]
  by_cases hi : i < points.length
  · have hpi : points[i]? = some points[i] := List.getElem?_eq_getElem hi
    rw [hpi]
    simp only [Option.map_some, if_pos hi]
    congr 1
    split_ifs with hc
    · rfl
    · have h0 : m i = 0 := by
        rw [constant (m := m) (a := j) (b := i) (fun k h1 h2 => ?_) i (by omega) le_rfl, hj (by omega)]
        by_contra hcc
        have := (hmem (k + 1)).mpr ⟨k, rfl, by omega, h1, hcc⟩
        simp at this
      have hv := (h.values (i := i) (by rw [xs_length]; omega)).1
      rw [xs_getD points i _ hpi, h0] at hv
      ext
      · simp [hv]
      · rfl
  · have hpi : points[i]? = none := List.getElem?_eq_none (by omega)
    rw [hpi]
    rfl

lemma loop_spec (h : Samples pi (xs points) t m) (hm : ∀ i, i < points.length → |m i| ≤ 1) :
    ∀ (n j : ℕ), points.length ≤ n + j → (j < points.length → m j = 0) →
      fixLoop pi true n (mixed points t j) (discontinuities pi (xs (mixed points t j))) = some (mixed points t points.length) := by
  intro n
  induction n with
  | zero =>
    intro j hn hj
    have hd : discontinuities pi (xs (mixed points t j)) = [] := by
      apply List.eq_nil_iff_forall_not_mem.mpr
      intro i hi
      obtain ⟨k, _, h2, h3, _⟩ := (disc_mixed h hj i).mp hi
      omega
    rw [hd, ← done_spec h hj hd]
    rfl
  | succ n ih =>
    intro j hn hj
    cases hd : discontinuities pi (xs (mixed points t j)) with
    | nil =>
      rw [← done_spec h hj hd]
      rfl
    | cons index rest =>
      obtain ⟨j', h1, _, h3, h4, _⟩ := step_spec h hm hj hd
      rw [fixLoop, h4]
      exact ih j' (by omega) h3

/-- **C170** When the angle followed along the edge stays within a turn of the first period (`m` between -1 and 1, that is between -3π and 3π), the points
returned have this very angle, and their second coordinate is unchanged: the result is continuous.  In full there would be no such bound: see
`C170_counterexample`. -/
theorem C170_unwrap_partial (h : Samples pi (points.map fun (p : V2 K) => p.x) t m) (h0 : m 0 = 0) (hm : ∀ i, i < points.length → |m i| ≤ 1) :
    ∃ r, unwrapX pi points = some r ∧ r.length = points.length ∧ ∀ (i : ℕ) (p : V2 K), points[i]? = some p → r[i]? = some ⟨t i, p.y⟩ := by
  have h' : Samples pi (xs points) t m := h
  refine ⟨mixed points t points.length, ?_, mixed_length _ _ _, ?_⟩
  · have hz := mixed_zero points t
    have hloop := loop_spec h' hm points.length 0 (by omega) (fun _ => h0)
    have hdone := done_spec h' (j := 0) (fun _ => h0)
    have hstep := fun (i : ℕ) (l : List ℕ) => step_spec h' hm (j := 0) (fun _ => h0) (index := i) (rest := l)
    rw [hz] at hloop hdone hstep
    unfold unwrapX
    change (match discontinuities pi (xs points) with | [] => some points | l => fixDiscontinuities pi true points l) = _
    cases hd : discontinuities pi (xs points) with
    | nil => exact congrArg some (hdone hd)
    | cons i rest =>
      cases rest with
      | nil =>
        obtain ⟨j', _, _, _, h4, h5⟩ := hstep i [] hd
        rw [h5 rfl] at h4
        exact h4
      | cons i2 more =>
        rw [hd] at hloop
        exact hloop
  · intro i p hp
    rw [mixed_get, hp]
    have : i < points.length := by
      by_contra hc
      rw [List.getElem?_eq_none (by omega)] at hp
      cases hp
    simp [this]

end Volmdlr.Unwrap
