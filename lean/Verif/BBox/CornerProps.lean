import Verif.BBox.Props

/-!
# The corners of a bounding box (C14)
-/

namespace Volmdlr

variable {K : Type*} [Field K] [LinearOrder K] [IsStrictOrderedRing K]

/-- C14: the points of a bounding box are its corners: all the combinations of its extreme coordinates, eight of them, and the box of these points is
the box. -/
theorem C14_corners (b : Box3 K) (hb : b.Valid) :
    b.points.length = 8 ∧
    (∀ p : V3 K, p ∈ b.points ↔ (p.x = b.xmin ∨ p.x = b.xmax) ∧ (p.y = b.ymin ∨ p.y = b.ymax) ∧ (p.z = b.zmin ∨ p.z = b.zmax)) ∧
    Box3.fromPoints b.points = .ok b := by
  obtain ⟨h1, h2, h3⟩ := hb
  refine ⟨rfl, ?_, ?_⟩
  · intro p
    obtain ⟨x, y, z⟩ := p
    simp only [Box3.points, List.mem_cons, List.not_mem_nil, or_false, V3.mk.injEq]
    tauto
  · simp [Box3.fromPoints, Box3.points, listMin, listMax, h1, h2, h3]

-- a box of sides 1, 2, 3
example : (⟨0, 1, 0, 2, 0, 3⟩ : Box3 ℚ).Valid := by norm_num [Box3.Valid]

end Volmdlr
