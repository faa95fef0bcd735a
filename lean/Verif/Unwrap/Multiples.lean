import Verif.Unwrap.Unwrap

/-!
# C170: curves which wind more than once, and the second coordinate

The angles of the counterexamples are rational multiples of `π`; the functions commute with this change of unit, so that the values are computed with
rational numbers.
-/

namespace Volmdlr.Unwrap

open Real

/-- Points given with their coordinates as multiples of `π`. -/
noncomputable def timesPi (l : List (V2 ℚ)) : List (V2 ℝ) := l.map fun (c : V2 ℚ) => ⟨(c.x : ℝ) * π, (c.y : ℝ) * π⟩

/-- Angles given as multiples of `π`. -/
noncomputable def multiples (l : List ℚ) : List ℝ := l.map fun (c : ℚ) => (c : ℝ) * π

/-- No two angles with a sign change in between are nearly equal, whole turns apart. -/
def Coarse (l : List ℚ) : Prop := ∀ i ∈ signChanges l, 1 / 10 ^ 4 ≤ |l.getD i 0 + signOf (l.getD (i - 1) 0) * (2 * 1) - l.getD (i - 1) 0|

instance (l : List ℚ) : Decidable (Coarse l) := by unfold Coarse; infer_instance

lemma multiples_getD (l : List ℚ) (i : ℕ) : (multiples l).getD i 0 = ((l.getD i 0 : ℚ) : ℝ) * π := by
  unfold multiples
  rw [List.getD, List.getElem?_map, List.getD]
  cases l[i]? <;> simp

lemma signChanges_multiples (l : List ℚ) : signChanges (multiples l) = signChanges l := by
  unfold signChanges
  have : (multiples l).length = l.length := by simp [multiples]
  rw [this]
  apply List.filter_congr
  intro i _
  rw [multiples_getD, multiples_getD, decide_eq_decide]
  have hp : 0 < π * π := mul_pos pi_pos pi_pos
  have : ((l.getD i 0 : ℚ) : ℝ) * π * (((l.getD (i - 1) 0 : ℚ) : ℝ) * π) = (((l.getD i 0 * l.getD (i - 1) 0 : ℚ)) : ℝ) * (π * π) := by
    push_cast; ring
  rw [this, mul_neg_iff]
  constructor
  · rintro ⟨h1, h2⟩
    refine ⟨h1, ?_⟩
    rcases h2 with ⟨_, h2⟩ | ⟨h2, _⟩
    · linarith
    · exact_mod_cast h2
  · rintro ⟨h1, h2⟩
    exact ⟨h1, Or.inr ⟨by exact_mod_cast h2, hp⟩⟩

lemma signOf_multiple (a : ℚ) : signOf ((a : ℝ) * π) = ((signOf a : ℚ) : ℝ) := by
  unfold signOf
  by_cases h : 0 < a
  · rw [if_pos h, if_pos (mul_pos (by exact_mod_cast h) pi_pos)]
    simp
  · rw [if_neg h, if_neg]
    · simp
    · intro hc
      rw [mul_pos_iff_of_pos_right pi_pos] at hc
      exact h (by exact_mod_cast hc)

lemma abs_multiple (a : ℚ) : |(a : ℝ) * π| = ((|a| : ℚ) : ℝ) * π := by
  rw [abs_mul, abs_of_pos pi_pos]
  push_cast
  rfl

lemma close_multiple (a b d : ℚ) : mathIsClose ((a : ℝ) * π) ((b : ℝ) * π) ((d : ℝ) * π) = mathIsClose a b d := by
  unfold mathIsClose
  rw [decide_eq_decide, ← sub_mul]
  have e1 : |((a : ℝ) - b) * π| = ((|a - b| : ℚ) : ℝ) * π := by
    have := abs_multiple (a - b)
    push_cast at this ⊢
    exact this
  rw [e1, abs_multiple, abs_multiple]
  have e2 : max (1 / 10 ^ 9 * max (((|a| : ℚ) : ℝ) * π) (((|b| : ℚ) : ℝ) * π)) ((d : ℝ) * π) =
      ((max (1 / 10 ^ 9 * max |a| |b|) d : ℚ) : ℝ) * π := by
    rw [← max_mul_of_nonneg _ _ pi_pos.le, ← mul_assoc, ← max_mul_of_nonneg _ _ pi_pos.le]
    push_cast
    rfl
  rw [e2]
  rw [mul_le_mul_iff_left₀ pi_pos]
  exact_mod_cast Iff.rfl

lemma wraps_multiple {a b : ℚ} (h : 1 / 10 ^ 4 ≤ |b + signOf a * (2 * 1) - a|) : wraps π ((a : ℝ) * π) ((b : ℝ) * π) = wraps 1 a b := by
  unfold wraps
  dsimp only
  rw [signOf_multiple, abs_multiple]
  have e : (b : ℝ) * π + ((signOf a : ℚ) : ℝ) * (2 * π) - (a : ℝ) * π = ((b + signOf a * (2 * 1) - a : ℚ) : ℝ) * π := by
    push_cast; ring
  rw [e, abs_multiple]
  set d := |b + signOf a * (2 * 1) - a| with hd
  have hd' : ((1 : ℝ) / 10 ^ 4) ≤ (d : ℝ) * π := by
    have h1 : ((1 / 10 ^ 4 : ℚ) : ℝ) ≤ (d : ℝ) := by exact_mod_cast h
    push_cast at h1
    have h2 : (d : ℝ) * 1 ≤ (d : ℝ) * π := mul_le_mul_of_nonneg_left (by linarith [pi_gt_three]) (le_trans (by norm_num) h1)
    linarith
  rw [max_eq_left hd', max_eq_left h]
  have e2 : (11 : ℝ) / 10 * ((d : ℝ) * π) = ((11 / 10 * d : ℚ) : ℝ) * π := by push_cast; ring
  have e3 := close_multiple |b| 1 (11 / 10 * d)
  have e4 := close_multiple |b| 0 (11 / 10 * d)
  push_cast at e2 e3 e4 ⊢
  rw [one_mul] at e3
  rw [zero_mul] at e4
  rw [e2, e3, e4]

lemma discontinuities_multiples {l : List ℚ} (h : Coarse l) : discontinuities π (multiples l) = discontinuities 1 l := by
  unfold discontinuities
  rw [signChanges_multiples]
  apply List.filter_congr
  intro i hi
  rw [multiples_getD, multiples_getD]
  exact wraps_multiple (h i hi)

lemma xs_timesPi (l : List (V2 ℚ)) : (timesPi l).map (fun (p : V2 ℝ) => p.x) = multiples (l.map fun (p : V2 ℚ) => p.x) := by
  simp [timesPi, multiples, Function.comp_def]

lemma ys_timesPi (l : List (V2 ℚ)) : (timesPi l).map (fun (p : V2 ℝ) => p.y) = multiples (l.map fun (p : V2 ℚ) => p.y) := by
  simp [timesPi, multiples, Function.comp_def]

lemma helperFix_timesPi (dirX : Bool) (l : List (V2 ℚ)) (i : ℕ) :
    helperFix π dirX (timesPi l) i = (helperFix 1 dirX l i).map fun (r : List (V2 ℚ)) => timesPi r := by
  unfold helperFix
  dsimp only
  have hget : (timesPi l).getD (i - 1) ⟨0, 0⟩ = ⟨((l.getD (i - 1) ⟨0, 0⟩).x : ℝ) * π, ((l.getD (i - 1) ⟨0, 0⟩).y : ℝ) * π⟩ := by
    unfold timesPi
    rw [List.getD, List.getElem?_map, List.getD]
    cases l[i - 1]? <;> simp
  rw [hget]
  have hc : coord dirX (⟨((l.getD (i - 1) ⟨0, 0⟩).x : ℝ) * π, ((l.getD (i - 1) ⟨0, 0⟩).y : ℝ) * π⟩ : V2 ℝ) =
      ((coord dirX (l.getD (i - 1) ⟨0, 0⟩) : ℚ) : ℝ) * π := by
    unfold coord
    split_ifs <;> rfl
  rw [hc]
  generalize coord dirX (l.getD (i - 1) ⟨0, 0⟩) = a
  by_cases ha : a = 0
  · simp [ha]
  · have ha' : (a : ℝ) * π ≠ 0 := mul_ne_zero (by exact_mod_cast ha) pi_pos.ne'
    rw [if_neg ha, if_neg ha', Option.map_some, signOf_multiple]
    congr 1
    apply List.ext_getElem?
    intro j
    simp only [timesPi, List.getElem?_map, List.getElem?_zipIdx, Option.map_map, Function.comp_def]
    congr 1
    funext p
    simp only [Nat.zero_add]
    split_ifs with hj
    · unfold shift
      split_ifs
      · ext
        · push_cast; ring
        · rfl
      · ext
        · rfl
        · push_cast; ring
    · rfl

lemma fixStep_timesPi (dirX : Bool) (l : List (V2 ℚ)) (i : ℕ) (rest : List ℕ) :
    fixStep π dirX (timesPi l) i rest = (fixStep 1 dirX l i rest).map fun (r : List (V2 ℚ)) => timesPi r := by
  cases rest with
  | nil => exact helperFix_timesPi dirX l i
  | cons next more =>
    unfold fixStep
    dsimp only
    have h1 : (timesPi l).take next = timesPi (l.take next) := by simp [timesPi, List.map_take]
    have h2 : (timesPi l).drop next = timesPi (l.drop next) := by simp [timesPi, List.map_drop]
    rw [h1, h2, helperFix_timesPi]
    cases helperFix 1 dirX (l.take next) i with
    | none => rfl
    | some r => simp [timesPi]

/-- One turn of the loop, computed with the factors. -/
lemma fixLoop_timesPi (dirX : Bool) (n : ℕ) (l r : List (V2 ℚ)) (i : ℕ) (rest : List ℕ) (h : fixStep 1 dirX l i rest = some r)
    (hc : Coarse (r.map fun (p : V2 ℚ) => p.x)) :
    fixLoop π dirX (n + 1) (timesPi l) (i :: rest) = fixLoop π dirX n (timesPi r) (discontinuities 1 (r.map fun (p : V2 ℚ) => p.x)) := by
  rw [fixLoop, fixStep_timesPi, h]
  dsimp only [Option.map_some]
  rw [xs_timesPi, discontinuities_multiples hc]

/-- C170 in full: however often the curve winds. -/
def C170_full_statement : Prop :=
  ∀ (points : List (V2 ℝ)) (t : ℕ → ℝ) (m : ℕ → ℤ), Samples π (points.map fun (p : V2 ℝ) => p.x) t m → m 0 = 0 →
    ∃ r, unwrapX π points = some r ∧ ∀ (i : ℕ) (p : V2 ℝ), points[i]? = some p → r[i]? = some ⟨t i, p.y⟩

/-- Two turns: from `0.8 π` to `3.2 π` by steps of `0.4 π`. -/
def helix : List (V2 ℚ) := [⟨4 / 5, 0⟩, ⟨-4 / 5, 1⟩, ⟨-2 / 5, 2⟩, ⟨0, 3⟩, ⟨2 / 5, 4⟩, ⟨4 / 5, 5⟩, ⟨-4 / 5, 6⟩]

/-- What the code gives: the last point is not moved. -/
def helixOut : List (V2 ℚ) := [⟨4 / 5, 0⟩, ⟨6 / 5, 1⟩, ⟨8 / 5, 2⟩, ⟨2, 3⟩, ⟨12 / 5, 4⟩, ⟨14 / 5, 5⟩, ⟨-4 / 5, 6⟩]

lemma unwrap_helix : unwrapX π (timesPi helix) = some (timesPi helixOut) := by
  unfold unwrapX
  rw [xs_timesPi, discontinuities_multiples (show Coarse (helix.map fun (p : V2 ℚ) => p.x) by decide +kernel)]
  have h1 : discontinuities 1 (helix.map fun (p : V2 ℚ) => p.x) = [1, 6] := by decide +kernel
  have hl : (timesPi helix).length = 6 + 1 := by simp [timesPi, helix]
  have h2 : discontinuities 1 (helixOut.map fun (p : V2 ℚ) => p.x) = [] := by decide +kernel
  rw [h1]
  change fixLoop π true (timesPi helix).length (timesPi helix) [1, 6] = _
  rw [hl, fixLoop_timesPi true 6 helix helixOut 1 [6] (by decide +kernel) (by decide +kernel), h2]
  rfl

lemma helix_samples : Samples π ((timesPi helix).map fun (p : V2 ℝ) => p.x) (fun i => (4 / 5 + 2 / 5 * i) * π)
    (fun i => if i = 0 then 0 else if i < 6 then 1 else 2) where
  turn := by linarith [pi_gt_three]
  lift := by
    intro i x hx
    rw [xs_timesPi] at hx
    rcases i with _ | _ | _ | _ | _ | _ | _ | i <;> simp [multiples, helix] at hx <;> subst hx <;> push_cast <;> norm_num <;> ring
  reduced := by
    intro x hx
    have hp := pi_pos
    rw [xs_timesPi] at hx
    simp only [multiples, helix, List.map_cons, List.map_nil, List.mem_cons, List.not_mem_nil, or_false] at hx
    rcases hx with rfl | rfl | rfl | rfl | rfl | rfl | rfl <;> push_cast <;> rw [abs_le] <;> constructor <;> linarith
  near := by
    intro i _
    have hp := pi_pos
    push_cast
    rw [show (4 / 5 + 2 / 5 * ((i : ℝ) + 1)) * π - (4 / 5 + 2 / 5 * i) * π = 2 / 5 * π by ring, abs_of_pos (by positivity)]
    linarith

/-- **C170** A curve which winds twice (a helix) is not made continuous: the end of the first turn is moved, and the second jump, which is then of two turns,
is not seen any more. -/
theorem C170_counterexample : ¬ C170_full_statement := by
  intro h
  obtain ⟨r, hr, hr'⟩ := h (timesPi helix) _ _ helix_samples (by simp)
  rw [unwrap_helix] at hr
  cases hr
  have h6 := hr' 6 ⟨((-4 / 5 : ℚ) : ℝ) * π, ((6 : ℚ) : ℝ) * π⟩ (by simp [timesPi, helix])
  simp [timesPi, helixOut] at h6
  have hp := pi_pos
  nlinarith [h6]

/-- A curve on a torus: the first angle does not change, the second goes past `π`, comes back, and goes past it again. -/
def torusCurve : List (V2 ℚ) := [⟨0, 4 / 5⟩, ⟨0, -4 / 5⟩, ⟨0, 4 / 5⟩, ⟨0, -4 / 5⟩]

def torusOut : List (V2 ℚ) := [⟨0, 4 / 5⟩, ⟨0, 6 / 5⟩, ⟨0, 4 / 5⟩, ⟨0, -4 / 5⟩]

/-- **C170** The second coordinate is not treated as the first one: the indices are searched again among the first coordinates.  The same angles are made
continuous as first coordinates, and not as second ones. -/
theorem C170_second_coordinate_counterexample :
    (∃ r, unwrapX π (timesPi (torusCurve.map fun (p : V2 ℚ) => (⟨p.y, p.x⟩ : V2 ℚ))) = some r ∧
      r.map (fun (p : V2 ℝ) => p.x) = multiples [4 / 5, 6 / 5, 4 / 5, 6 / 5]) ∧
    ∃ r, unwrapXY π (timesPi torusCurve) = some r ∧ r.map (fun (p : V2 ℝ) => p.y) = multiples [4 / 5, 6 / 5, 4 / 5, -4 / 5] := by
  constructor
  · let l : List (V2 ℚ) := [⟨4 / 5, 0⟩, ⟨-4 / 5, 0⟩, ⟨4 / 5, 0⟩, ⟨-4 / 5, 0⟩]
    let l1 : List (V2 ℚ) := [⟨4 / 5, 0⟩, ⟨6 / 5, 0⟩, ⟨4 / 5, 0⟩, ⟨-4 / 5, 0⟩]
    let l2 : List (V2 ℚ) := [⟨4 / 5, 0⟩, ⟨6 / 5, 0⟩, ⟨4 / 5, 0⟩, ⟨6 / 5, 0⟩]
    refine ⟨timesPi l2, ?_, ?_⟩
    · change unwrapX π (timesPi l) = _
      unfold unwrapX
      rw [xs_timesPi, discontinuities_multiples (show Coarse (l.map fun (p : V2 ℚ) => p.x) by decide +kernel)]
      have h1 : discontinuities 1 (l.map fun (p : V2 ℚ) => p.x) = [1, 2, 3] := by decide +kernel
      have h2 : discontinuities 1 (l1.map fun (p : V2 ℚ) => p.x) = [3] := by decide +kernel
      have h3 : discontinuities 1 (l2.map fun (p : V2 ℚ) => p.x) = [] := by decide +kernel
      have hl : (timesPi l).length = 3 + 1 := by simp [timesPi, l]
      rw [h1]
      change fixLoop π true (timesPi l).length (timesPi l) [1, 2, 3] = _
      rw [hl, fixLoop_timesPi true 3 l l1 1 [2, 3] (by decide +kernel) (by decide +kernel), h2,
        fixLoop_timesPi true 2 l1 l2 3 [] (by decide +kernel) (by decide +kernel), h3]
      rfl
    · rw [xs_timesPi]
      rfl
  · refine ⟨timesPi torusOut, ?_, ?_⟩
    · have h0 : discontinuities 1 (torusCurve.map fun (p : V2 ℚ) => p.x) = [] := by decide +kernel
      have h1 : discontinuities 1 (torusCurve.map fun (p : V2 ℚ) => p.y) = [1, 2, 3] := by decide +kernel
      have h2 : discontinuities 1 (torusOut.map fun (p : V2 ℚ) => p.x) = [] := by decide +kernel
      have hx : unwrapX π (timesPi torusCurve) = some (timesPi torusCurve) := by
        unfold unwrapX
        rw [xs_timesPi, discontinuities_multiples (show Coarse (torusCurve.map fun (p : V2 ℚ) => p.x) by decide +kernel), h0]
      have hl : (timesPi torusCurve).length = 3 + 1 := by simp [timesPi, torusCurve]
      unfold unwrapXY
      rw [ys_timesPi, discontinuities_multiples (show Coarse (torusCurve.map fun (p : V2 ℚ) => p.y) by decide +kernel), h1, hx]
      change fixLoop π false (timesPi torusCurve).length (timesPi torusCurve) [1, 2, 3] = _
      rw [hl, fixLoop_timesPi false 3 torusCurve torusOut 1 [2, 3] (by decide +kernel) (by decide +kernel), h2]
      rfl
    · rw [ys_timesPi]
      rfl

/-- The hypotheses of `C169_discontinuities_partial` and `C170_unwrap_partial` are met by the first six points of the helix: the angle goes from `0.8 π` to `2.8 π`. -/
example : ∃ (t : ℕ → ℝ) (m : ℕ → ℤ), Samples π (((timesPi helix).take 6).map fun (p : V2 ℝ) => p.x) t m ∧ m 0 = 0 ∧
    (∀ i, i < ((timesPi helix).take 6).length → |m i| ≤ 1) ∧ m 1 ≠ m 0 := by
  refine ⟨fun i => (4 / 5 + 2 / 5 * i) * π, fun i => if i = 0 then 0 else if i < 6 then 1 else 2,
    ⟨helix_samples.turn, ?_, ?_, ?_⟩, by simp, ?_, by simp⟩
  · intro i x hx
    rw [List.map_take, List.getElem?_take] at hx
    split_ifs at hx
    exact helix_samples.lift i x hx
  · intro x hx
    rw [List.map_take] at hx
    exact helix_samples.reduced x (List.mem_of_mem_take hx)
  · intro i hi
    apply helix_samples.near i
    simp at hi ⊢
    omega
  · intro i hi
    have : i < 6 := by simp at hi; omega
    rcases i with _ | i
    · simp
    · simp [this]

end Volmdlr.Unwrap
