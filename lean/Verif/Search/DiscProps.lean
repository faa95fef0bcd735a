import Verif.Search.Model
import Verif.Lists.Props
import Verif.Segment.Props
import Mathlib.Algebra.Order.Round

/-!
# C188: the discretization of a part of an edge

**C188** `get_abscissa_discretization` (and `local_discretization`): the points are points of the edge at the sampled abscissas, in their order,
no two of them close; every sampled abscissa of the edge has a kept point within the tolerance, and so has every place between the
two abscissas up to half a step.
-/

namespace Volmdlr.Search

/-- The `i`-th of `num` abscissas evenly spread from `a1` to `a2` (specification). -/
noncomputable def sample (a1 a2 : ℝ) (num i : ℕ) : ℝ := a1 + i * ((a2 - a1) / ((num - 1 : ℕ) : ℝ))

lemma npLinspace_eq (a1 a2 : ℝ) (num : ℕ) : Grid.npLinspace a1 a2 num = (List.range num).map (sample a1 a2 num) := by
  unfold Grid.npLinspace
  refine List.map_congr_left fun i hi => ?_
  split_ifs with h
  · obtain ⟨h1, h2⟩ := h
    unfold sample
    have e : i = num - 1 := by omega
    have : ((num - 1 : ℕ) : ℝ) ≠ 0 := Nat.cast_ne_zero.mpr (by omega)
    rw [e]; field_simp; ring
  · rfl

lemma isClose_iff (p q : V3 ℝ) : isClose p q = true ↔ V3.pointDistance q p ≤ 1 / 10 ^ 6 := by
  unfold isClose
  rw [C12_in_list _ _ _ (by norm_num)]
  simp [V3.pointDistance]

/-- **C188** what is kept: points of the edge at sampled abscissas, in increasing order of sampling, pairwise more than `1e-6` apart, none past the end of
the edge; and every sampled abscissa of the edge has a kept point, sampled no later, within `1e-6` of its own. -/
theorem C188_discretization (e : Edge) (a1 a2 : ℝ) (num : ℕ) :
    ∃ kept : List ℕ, kept.Sublist (List.range num) ∧
      abscissaDiscretization e a1 a2 num = kept.map (fun i : ℕ => (e.pointAt (sample a1 a2 num i), sample a1 a2 num i)) ∧
      (∀ i ∈ kept, sample a1 a2 num i ≤ e.length + 1 / 10 ^ 6) ∧
      kept.Pairwise (fun i j => 1 / 10 ^ 6 < V3.pointDistance (e.pointAt (sample a1 a2 num i)) (e.pointAt (sample a1 a2 num j))) ∧
      ∀ i < num, sample a1 a2 num i ≤ e.length + 1 / 10 ^ 6 → ∃ j ∈ kept, j ≤ i ∧
        V3.pointDistance (e.pointAt (sample a1 a2 num j)) (e.pointAt (sample a1 a2 num i)) ≤ 1 / 10 ^ 6 := by
  unfold abscissaDiscretization
  rw [npLinspace_eq]
  generalize sample a1 a2 num = f
  induction num with
  | zero => exact ⟨[], by simp, by simp, by simp, by simp, by simp⟩
  | succ n ih =>
    obtain ⟨kept, h1, h2, h3, h4, h5⟩ := ih
    rw [List.range_succ, List.map_append, List.foldl_append, h2]
    simp only [List.map_cons, List.map_nil, List.foldl_cons, List.foldl_nil]
    have hin : ∀ p, point3dInList p ((kept.map (fun i : ℕ => (e.pointAt (f i), f i))).map Prod.fst) (1 / 10 ^ 6) = true ↔
        ∃ j ∈ kept, V3.pointDistance (e.pointAt (f j)) p ≤ 1 / 10 ^ 6 := by
      intro p
      rw [C12_in_list _ _ _ (by norm_num)]
      simp [V3.pointDistance]
    have hlt : ∀ j ∈ kept, j < n := fun j hj => List.mem_range.mp (h1.subset hj)
    split_ifs with c1 c2
    · refine ⟨kept, h1.trans (List.sublist_append_left _ _), rfl, h3, h4, fun i hi hl => ?_⟩
      rcases Nat.lt_succ_iff_lt_or_eq.mp hi with hi | rfl
      · exact h5 i hi hl
      · exact absurd hl (not_le.mpr c1)
    · refine ⟨kept, h1.trans (List.sublist_append_left _ _), rfl, h3, h4, fun i hi hl => ?_⟩
      rcases Nat.lt_succ_iff_lt_or_eq.mp hi with hi | rfl
      · exact h5 i hi hl
      · obtain ⟨j, hj, hd⟩ := (hin _).mp c2
        exact ⟨j, hj, (hlt j hj).le, hd⟩
    · have c2' : ∀ i ∈ kept, 1 / 10 ^ 6 < V3.pointDistance (e.pointAt (f i)) (e.pointAt (f n)) := fun i hi =>
        lt_of_not_ge fun hh => c2 ((hin _).mpr ⟨i, hi, hh⟩)
      refine ⟨kept ++ [n], h1.append (List.Sublist.refl _), by simp, ?_, ?_, fun i hi hl => ?_⟩
      · intro i hi
        rcases List.mem_append.mp hi with hi | hi
        · exact h3 i hi
        · rw [List.mem_singleton.mp hi]; exact not_lt.mp c1
      · rw [List.pairwise_append]
        refine ⟨h4, by simp, fun i hi j hj => ?_⟩
        rw [List.mem_singleton.mp hj]; exact c2' i hi
      · rcases Nat.lt_succ_iff_lt_or_eq.mp hi with hi | rfl
        · obtain ⟨j, hj, hh⟩ := h5 i hi hl
          exact ⟨j, List.mem_append_left _ hj, hh⟩
        · refine ⟨i, by simp, le_rfl, ?_⟩
          rw [V3.pointDistance, (V3.norm_eq_zero_iff _).mpr (by ext <;> simp)]; norm_num

/-- An edge measured by its length: two points are not further apart than their abscissas (specification). -/
def Edge.Measured (e : Edge) : Prop := ∀ s t, V3.pointDistance (e.pointAt s) (e.pointAt t) ≤ |s - t|

/-- **C188** no hole: between the two abscissas, every point of the edge is within half a step (and the tolerance) of a kept point. -/
theorem C188_coverage (e : Edge) (he : e.Measured) (a1 a2 : ℝ) (num : ℕ) (hn : 2 ≤ num) (h12 : a1 ≤ a2) (hl : a2 ≤ e.length)
    (s : ℝ) (h1 : a1 ≤ s) (h2 : s ≤ a2) :
    ∃ q ∈ abscissaDiscretization e a1 a2 num,
      V3.pointDistance (e.pointAt s) q.1 ≤ (a2 - a1) / (num - 1) / 2 + 1 / 10 ^ 6 := by
  obtain ⟨kept, -, hk, -, -, hc⟩ := C188_discretization e a1 a2 num
  have hm : ((num - 1 : ℕ) : ℝ) = num - 1 := by rw [Nat.cast_sub (by omega)]; simp
  have hpos : (0 : ℝ) < num - 1 := by
    have : (2 : ℝ) ≤ num := by exact_mod_cast hn
    linarith
  set m : ℝ := (num : ℝ) - 1 with hmd
  set step := (a2 - a1) / m with hstep
  have hstep0 : 0 ≤ step := div_nonneg (by linarith) hpos.le
  have hms : m * step = a2 - a1 := by rw [hstep]; field_simp
  obtain ⟨i, hi, hs⟩ : ∃ i : ℕ, i < num ∧ |s - sample a1 a2 num i| ≤ step / 2 := by
    rcases eq_or_lt_of_le hstep0 with h0 | h0
    · refine ⟨0, by omega, ?_⟩
      have : a2 = a1 := by rw [← h0] at hms; linarith
      unfold sample
      have : s = a1 := by linarith
      rw [← h0, this]; simp
    · let x := (s - a1) / step
      have hx0 : 0 ≤ x := div_nonneg (by linarith) h0.le
      have hxm : x ≤ m := by rw [div_le_iff₀ h0]; linarith
      have hr := abs_sub_round x
      have hr0 : 0 ≤ round x := by rw [round_eq]; exact Int.floor_nonneg.mpr (by linarith)
      obtain ⟨k, hk'⟩ := Int.eq_ofNat_of_zero_le hr0
      have hkm : k < num := by
        have h3 : (round x : ℝ) ≤ x + 1 / 2 := by have := (abs_le.mp hr).1; linarith
        have h4 : ((k : ℕ) : ℝ) < num := by
          rw [hk'] at h3; push_cast at h3
          rw [hmd] at hxm; linarith
        exact_mod_cast h4
      refine ⟨k, hkm, ?_⟩
      unfold sample
      rw [hm, ← hstep]
      have e1 : s - (a1 + k * step) = (x - k) * step := by
        have : x * step = s - a1 := div_mul_cancel₀ _ h0.ne'
        linear_combination -this
      rw [e1, abs_mul, abs_of_pos h0]
      rw [hk'] at hr
      push_cast at hr
      nlinarith
  have hsl : sample a1 a2 num i ≤ e.length + 1 / 10 ^ 6 := by
    have : sample a1 a2 num i ≤ a2 := by
      unfold sample
      rw [hm, ← hstep]
      have : ((i : ℕ) : ℝ) ≤ m := by
        have : ((i + 1 : ℕ) : ℝ) ≤ num := by exact_mod_cast hi
        push_cast at this; linarith
      nlinarith
    have : (0 : ℝ) ≤ 1 / 10 ^ 6 := by norm_num
    linarith
  obtain ⟨j, hj, -, hd⟩ := hc i hi hsl
  refine ⟨_, hk ▸ List.mem_map.mpr ⟨j, hj, rfl⟩, ?_⟩
  have t1 := V3.pointDistance_triangle (e.pointAt s) (e.pointAt (sample a1 a2 num i)) (e.pointAt (sample a1 a2 num j))
  have t2 := he s (sample a1 a2 num i)
  rw [V3.pointDistance_symm] at hd
  dsimp only
  linarith

/-- The segment of length ten along the first axis (example). -/
noncomputable def exampleEdge : Edge := ⟨10, fun s => ⟨s, 0, 0⟩, fun p => p.x, false⟩

lemma exampleEdge_measured : exampleEdge.Measured := by
  intro s t
  simp [exampleEdge, V3.pointDistance, V3.norm, Real.sqrt_mul_self_eq_abs]

/-- A discretization with several points: of the eleven abscissas of the segment all are kept at both ends. -/
example : ∃ q ∈ abscissaDiscretization exampleEdge 0 10 11, V3.pointDistance (exampleEdge.pointAt 3.3) q.1 ≤ 1 / 2 + 1 / 10 ^ 6 := by
  obtain ⟨q, hq, h⟩ := C188_coverage exampleEdge exampleEdge_measured 0 10 11 (by norm_num) (by norm_num) (by simp [exampleEdge]) 3.3 (by norm_num) (by norm_num)
  exact ⟨q, hq, by norm_num at h ⊢; exact h⟩

end Volmdlr.Search
