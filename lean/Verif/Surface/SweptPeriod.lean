import Verif.Surface.SweptProps
import Verif.Intersect.LineProps

/-!
# C156: the period of a surface of revolution along its generatrix
-/

namespace Volmdlr.Surface

open Real

/-- The length of the generatrix, when it has one (specification): the distance of the ends of a segment, the length of another edge. -/
def HasLength (e : Generatrix) (d : ℝ) : Prop :=
  match e with
  | .line _ => False
  | .segment s => d = V3.pointDistance s.start s.stop
  | .arc _ _ c => d = c.length
  | .other c => d = c.length

theorem isClose3_le (p q : V3 ℝ) : Arc.isClose3 p q (1 / 10 ^ 6) ↔ V3.pointDistance p q ≤ 1 / 10 ^ 6 := by
  unfold Arc.isClose3
  rw [Intersect.mathIsClose_zero (by norm_num), abs_of_nonneg (show 0 ≤ V3.pointDistance _ _ from V3.norm_nonneg _)]

/-- C156: `y_periodicity` is the length of the generatrix when its two ends are at the same place, up to 1e-6, and there is none
otherwise, nor for a line. -/
theorem C156_y_periodicity {s : Revolution} (hs : s.Valid) :
    (∀ l, s.edge = .line l → s.yPeriodicity = some none) ∧
    ∀ d p q, HasLength s.edge d → s.edge.pointAt 0 = some p → s.edge.pointAt d = some q →
      (V3.pointDistance p q ≤ 1 / 10 ^ 6 → s.yPeriodicity = some (some d)) ∧
      (1 / 10 ^ 6 < V3.pointDistance p q → s.yPeriodicity = some none) := by
  refine ⟨fun l hl => by unfold Revolution.yPeriodicity; rw [hl], ?_⟩
  intro d p q hd hp hq
  have key : s.yPeriodicity = some (if V3.pointDistance q p ≤ 1 / 10 ^ 6 then some d else none) := by
    have h1 : s.to3d ⟨1 / 2 * (π - -π), 0⟩ = some (V3.rotation p s.axisPoint s.axis (1 / 2 * (π - -π))) := by
      rw [to3d_rotation]; dsimp only; rw [hp]; rfl
    have h2 : s.to3d ⟨1 / 2 * (π - -π), d⟩ = some (V3.rotation q s.axisPoint s.axis (1 / 2 * (π - -π))) := by
      rw [to3d_rotation]; dsimp only; rw [hq]; rfl
    have h3 := C01_rotation3d_isometry q p s.axisPoint s.axis (1 / 2 * (π - -π)) hs.norm
    have h4 : ∀ d', d' = d → ((s.to3d ⟨1 / 2 * (π - -π), 0⟩).bind fun pc =>
        (s.to3d ⟨1 / 2 * (π - -π), d'⟩).map fun pd => if V3.pointDistance pd pc ≤ 1 / 10 ^ 6 then some d' else none) =
        some (if V3.pointDistance q p ≤ 1 / 10 ^ 6 then some d else none) := by
      rintro d' rfl
      rw [h1, Option.bind_some, h2, Option.map_some, h3]
    unfold Revolution.yPeriodicity
    simp only [isClose3_le]
    rcases he : s.edge with l | e | ⟨c, r, e⟩ | e
    · rw [he] at hd; exact hd.elim
    · rw [he] at hd
      exact h4 _ ((V3.pointDistance_symm _ _).trans hd.symm)
    · rw [he] at hd
      exact h4 _ hd.symm
    · rw [he] at hd
      exact h4 _ hd.symm
  rw [V3.pointDistance_symm p q]
  refine ⟨fun h => ?_, fun h => ?_⟩
  · rw [key, if_pos h]
  · rw [key, if_neg (not_le.2 h)]

/-- C156: `parametric_points_to_3d` gives the point of `point2d_to_3d` for every abscissa between 0 and the length of the generatrix. -/
theorem C156_parametric_length {s : Revolution} (hs : s.Valid) (d u v : ℝ) (p0 pd p : V3 ℝ) (hd : HasLength s.edge d)
    (hp0 : s.edge.pointAt 0 = some p0) (hpd : s.edge.pointAt d = some pd) (hv : 0 ≤ v ∧ v ≤ d) (hp : s.to3d ⟨u, v⟩ = some p) :
    s.paramTo3d ⟨u, v⟩ = some (⟨u, v⟩, p) := by
  refine C156_parametric s u v p hp ?_
  obtain ⟨h1, h2⟩ := (C156_y_periodicity hs).2 d p0 pd hd hp0 hpd
  rcases le_or_gt (V3.pointDistance p0 pd) (1 / 10 ^ 6) with h | h
  · refine ⟨_, h1 h, ?_⟩
    intro x hx
    obtain rfl := Option.some.inj hx
    exact hv
  · refine ⟨_, h2 h, ?_⟩
    intro x hx
    cases hx

/-- The hypotheses are met: a segment parallel to the axis has a length, and no period. -/
example (s : Revolution) (h : Revolution.new (.segment ⟨⟨1, 0, 0⟩, ⟨1, 0, 2⟩⟩) ⟨0, 0, 0⟩ ⟨0, 0, 1⟩ = some s) : s.Valid := new_valid h

end Volmdlr.Surface
