import Verif.Fillet.RadiiProps

/-!
# The neighbours of the corners of a rounded polyline (C84)
-/

namespace Volmdlr.Fillet

lemma pyIndex_lt {α : Type*} (l : List α) (i : ℕ) (h : i < l.length) : pyIndex l (i : ℤ) = .ok l[i] := by
  unfold pyIndex
  have : ¬((i : ℤ) < 0) := by omega
  simp [this, h]

/-- C84: the corner `i` of a closed polyline lies between the previous point and the next one, cyclically: the first corner comes after the last point
and the last corner before the first point. -/
theorem C84_closed_neighbours {α : Type*} (points : List α) (i : ℕ) (hi : i < points.length) :
    getPoints points true i =
      .ok (points[(i + points.length - 1) % points.length]'(Nat.mod_lt _ (by omega)), points[i], points[(i + 1) % points.length]'(Nat.mod_lt _ (by omega))) := by
  have e1 : pyIndex points (if i = 0 then -1 else (i : ℤ) - 1) = .ok (points[(i + points.length - 1) % points.length]'(Nat.mod_lt _ (by omega))) := by
    by_cases h0 : i = 0
    · subst h0
      rw [if_pos rfl]
      have hm : (0 + points.length - 1) % points.length = points.length - 1 := by rw [Nat.zero_add]; exact Nat.mod_eq_of_lt (by omega)
      unfold pyIndex
      have h2 : ¬((-1 : ℤ) + points.length < 0) := by omega
      have h3 : ((-1 : ℤ) + points.length).toNat = points.length - 1 := by omega
      simp only [show (-1 : ℤ) < 0 by norm_num, if_true, h2, if_false, h3]
      rw [List.getElem?_eq_getElem (by omega)]
      simp only [hm]
    · rw [if_neg h0]
      have hm : (i + points.length - 1) % points.length = i - 1 := by
        rw [show i + points.length - 1 = (i - 1) + points.length by omega, Nat.add_mod_right, Nat.mod_eq_of_lt (by omega)]
      have : (i : ℤ) - 1 = ((i - 1 : ℕ) : ℤ) := by omega
      rw [this, pyIndex_lt _ _ (by omega)]
      simp only [hm]
  have e2 : pyIndex points (if (i : ℤ) < (points.length : ℤ) - 1 then (i : ℤ) + 1 else 0) = .ok (points[(i + 1) % points.length]'(Nat.mod_lt _ (by omega))) := by
    by_cases h0 : (i : ℤ) < (points.length : ℤ) - 1
    · rw [if_pos h0]
      have hm : (i + 1) % points.length = i + 1 := Nat.mod_eq_of_lt (by omega)
      have := pyIndex_lt points (i + 1) (by omega)
      push_cast at this
      rw [this]
      simp only [hm]
    · rw [if_neg h0]
      have hm : (i + 1) % points.length = 0 := by rw [show i + 1 = points.length by omega, Nat.mod_self]
      have := pyIndex_lt points 0 (by omega)
      push_cast at this
      rw [this]
      simp only [hm]
  unfold getPoints
  simp only [if_true]
  rw [e1, pyIndex_lt _ _ hi, e2]
  rfl

/-- C84: the corner `i` of an open polyline lies between the previous point and the next one. -/
theorem C84_open_neighbours {α : Type*} (points : List α) (i : ℕ) (h0 : 0 < i) (hi : i + 1 < points.length) :
    getPoints points false i = .ok (points[i - 1], points[i], points[i + 1]) := by
  unfold getPoints
  have h1 : (i : ℤ) - 1 = ((i - 1 : ℕ) : ℤ) := by omega
  have h2 := pyIndex_lt points (i + 1) hi
  push_cast at h2
  simp only [Bool.false_eq_true, if_false]
  rw [h1, pyIndex_lt _ _ (by omega), pyIndex_lt _ _ (by omega), h2]
  rfl

-- the first corner of a closed polyline of three points
example : getPoints [10, 20, 30] true 0 = .ok (30, 10, 20) := by decide +kernel

end Volmdlr.Fillet
