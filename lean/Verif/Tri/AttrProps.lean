import Verif.Tri.AreaProps
import Mathlib.Data.Finset.Card

/-!
# Triangle objects: construction, copies, equality (C102)
-/

namespace Volmdlr.Triangles

open Classical

/-- Full statement: a triangle keeps the transparency, the color and the name it is given. -/
def C102_attributes_full_statement : Prop :=
  ∀ (a b c : V3 ℝ) (alpha : ℝ) (color : Option (ℝ × ℝ × ℝ)) (name : String) (t : Triangle),
    Triangle.make a b c alpha color name = some t → t.alpha = alpha ∧ t.color = color ∧ t.name = name

lemma make_iff (a b c : V3 ℝ) (alpha : ℝ) (color : Option (ℝ × ℝ × ℝ)) (name : String) :
    (area (a, b, c) = 0 → Triangle.make a b c alpha color name = none) ∧
    (area (a, b, c) ≠ 0 → Triangle.make a b c alpha color name = some ⟨(a, b, c), 1, none, ""⟩) := by
  have h := C99_normal (a, b, c)
  unfold normal at h
  unfold Triangle.make
  dsimp only at h
  constructor
  · intro h0
    have hn := h.1 h0
    cases hp : Surface.planeFrom3Points a b c with
    | none => rfl
    | some f =>
      exfalso
      rw [Surface.planeFrom3Points_eq] at hp
      have hcr : V3.cross (b - a) (c - a) = ⟨0, 0, 0⟩ := by
        rw [C99_area, div_eq_zero_iff, V3.norm_eq_zero_iff] at h0
        rcases h0 with h0 | h0
        · exact h0
        · norm_num at h0
      rw [(C63_from3Points a b c).1 hcr] at hp
      cases hp
  · intro h0
    obtain ⟨n, hn, -⟩ := h.2 h0
    cases hp : Surface.planeFrom3Points a b c with
    | none => rw [hp] at hn; cases hn
    | some f => rfl

/-- C102: the name, the color and the transparency given to the constructor are lost: the initialisation of the face, called last, resets them. -/
theorem C102_attributes_counterexample : ¬C102_attributes_full_statement := by
  intro h
  have h0 : area (egyptian.1, egyptian.2.1, egyptian.2.2) ≠ 0 := by
    change area egyptian ≠ 0
    rw [egyptian_area]; norm_num
  have := (h _ _ _ (1 / 2) (some (1, 0, 0)) "roof" _ ((make_iff egyptian.1 egyptian.2.1 egyptian.2.2 (1 / 2) (some (1, 0, 0)) "roof").2 h0)).2.2
  simp at this

/-- C102: what the constructor, the copies, the dictionaries and the movements do keep: a triangle is built exactly when it is not flat; it has the
points given; copies, what is read from a dictionary, translated and turned triangles are built whenever the triangle was, with the points and
area expected. -/
theorem C102_triangle_partial (a b c : V3 ℝ) (alpha : ℝ) (color : Option (ℝ × ℝ × ℝ)) (name : String) :
    ((∃ t, Triangle.make a b c alpha color name = some t) ↔ area (a, b, c) ≠ 0) ∧
    ∀ t, Triangle.make a b c alpha color name = some t → t.points = (a, b, c) ∧ t.copy = some t ∧ Triangle.dictToObject t.toDict = some t ∧
      (∀ offset, ∃ u, t.translation offset = some u ∧ u.points = (V3.translation a offset, V3.translation b offset, V3.translation c offset) ∧
        area u.points = area t.points) ∧
      (∀ center axis angle, V3.dot axis axis = 1 → ∃ u, t.rotation center axis angle = some u ∧
        u.points = (V3.rotation a center axis angle, V3.rotation b center axis angle, V3.rotation c center axis angle) ∧
        area u.points = area t.points) := by
  obtain ⟨h1, h2⟩ := make_iff a b c alpha color name
  refine ⟨⟨?_, fun h => ⟨_, h2 h⟩⟩, ?_⟩
  · rintro ⟨t, ht⟩ h0
    rw [h1 h0] at ht; cases ht
  · intro t ht
    have h0 : area (a, b, c) ≠ 0 := by
      intro h0
      rw [h1 h0] at ht; cases ht
    obtain rfl : _ = t := Option.some.inj ((h2 h0).symm.trans ht)
    refine ⟨rfl, (make_iff a b c _ _ _).2 h0, (make_iff a b c _ _ _).2 h0, ?_, ?_⟩
    · intro offset
      have e := (C99_area_isometry a b c offset ⟨0, 0, 0⟩ ⟨1, 0, 0⟩ 0 (by simp [V3.dot])).1
      exact ⟨_, (make_iff _ _ _ _ _ _).2 (by rw [e]; exact h0), rfl, e⟩
    · intro center axis angle hax
      have e := (C99_area_isometry a b c ⟨0, 0, 0⟩ center axis angle hax).2
      exact ⟨_, (make_iff _ _ _ _ _ _).2 (by rw [e]; exact h0), rfl, e⟩

lemma flat_of_eq {a b c : V3 ℝ} (h : area (a, b, c) ≠ 0) : a ≠ b ∧ b ≠ c ∧ c ≠ a := by
  have key : ∀ u v : V3 ℝ, area (u, u, v) = 0 := by
    intro u v
    rw [C99_area]
    have : V3.cross (u - u) (v - u) = ⟨0, 0, 0⟩ := by ext <;> simp [V3.cross]
    dsimp only
    rw [this]; simp [V3.norm]
  refine ⟨?_, ?_, ?_⟩
  · rintro rfl; exact h (key _ _)
  · rintro rfl; rw [← area_cycle] at h; exact h (key _ _)
  · rintro rfl; rw [← area_cycle, ← area_cycle] at h; exact h (key _ _)

/-- C102: two triangles are equal exactly when one has the points of the other, in any order; then they have the same hash. -/
theorem C102_equality (t u : Triangle) (ht : area t.points ≠ 0) (hu : area u.points ≠ 0) :
    (t.dataEq u = true ↔ ({t.points.1, t.points.2.1, t.points.2.2} : Multiset (V3 ℝ)) = {u.points.1, u.points.2.1, u.points.2.2}) ∧
    (t.dataEq u = true → t.dataHash = u.dataHash) := by
  obtain ⟨⟨a, b, c⟩, al, co, na⟩ := t
  obtain ⟨⟨a', b', c'⟩, al', co', na'⟩ := u
  obtain ⟨h1, h2, h3⟩ := flat_of_eq ht
  obtain ⟨k1, k2, k3⟩ := flat_of_eq hu
  have nd : ({a, b, c} : Multiset (V3 ℝ)).Nodup := by
    simp [Multiset.insert_eq_cons, h1, h2, Ne.symm h3]
  have nd' : ({a', b', c'} : Multiset (V3 ℝ)).Nodup := by
    simp [Multiset.insert_eq_cons, k1, k2, Ne.symm k3]
  have e : (({a, b, c} : Finset (V3 ℝ)) = {a', b', c'}) ↔ ({a, b, c} : Multiset (V3 ℝ)) = {a', b', c'} := by
    have v : ∀ {x y z : V3 ℝ}, ({x, y, z} : Multiset (V3 ℝ)).Nodup → ({x, y, z} : Finset (V3 ℝ)).val = {x, y, z} := by
      intro x y z hn
      have : ({x, y, z} : Finset (V3 ℝ)) = ({x, y, z} : Multiset (V3 ℝ)).toFinset := by ext q; simp
      rw [this, Multiset.toFinset_val, Multiset.dedup_eq_self.2 hn]
    rw [← Finset.val_inj, v nd, v nd']
  have first : Triangle.dataEq ⟨(a, b, c), al, co, na⟩ ⟨(a', b', c'), al', co', na'⟩ = true ↔ ({a, b, c} : Multiset (V3 ℝ)) = {a', b', c'} := by
    unfold Triangle.dataEq
    rw [decide_eq_true_iff, ← e]
  refine ⟨first, fun h => ?_⟩
  have := congrArg (fun m : Multiset (V3 ℝ) => (m.map V3.approxHash).sum) (first.1 h)
  simp [Multiset.insert_eq_cons] at this
  unfold Triangle.dataHash
  dsimp only
  linarith

/-- Non-vacuity. -/
example : ∃ t, Triangle.make egyptian.1 egyptian.2.1 egyptian.2.2 = some t ∧ area t.points ≠ 0 := by
  have h0 : area (egyptian.1, egyptian.2.1, egyptian.2.2) ≠ 0 := by
    change area egyptian ≠ 0
    rw [egyptian_area]; norm_num
  exact ⟨_, (make_iff _ _ _ _ _ _).2 h0, h0⟩

end Volmdlr.Triangles
