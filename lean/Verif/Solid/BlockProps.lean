import Verif.Solid.Model
import Verif.Frame.Props
import Verif.BBox.Props
import Mathlib.Tactic.Ring
import Mathlib.Tactic.LinearCombination
import Mathlib.Tactic.FieldSimp
import Mathlib.Tactic.Linarith
import Mathlib.Tactic.IntervalCases

/-!
# C79: blocks
-/

namespace Volmdlr.Solid

section
variable {K : Type*} [Field K] [LinearOrder K] [IsStrictOrderedRing K]

/-- The points of a block (specification): centre plus at most half of each edge vector in both directions. -/
def InBlock (f : Frame3 K) (p : V3 K) : Prop :=
  ∃ a b c : K, |a| ≤ 1 / 2 ∧ |b| ≤ 1 / 2 ∧ |c| ≤ 1 / 2 ∧
    p = f.origin + V3.smul a f.basis.u + V3.smul b f.basis.v + V3.smul c f.basis.w

/-- The corner of a block with given signs (specification). -/
def corner (f : Frame3 K) (a b c : Bool) : V3 K :=
  let s (b : Bool) : K := if b then 1 / 2 else -(1 / 2)
  f.origin + V3.smul (s a) f.basis.u + V3.smul (s b) f.basis.v + V3.smul (s c) f.basis.w

/-- C79: `vertices` lists the eight corners. -/
theorem C79_vertices (f : Frame3 K) :
    blockVertices f = [corner f false false false, corner f false true false, corner f true true false,
      corner f true false false, corner f false false true, corner f false true true, corner f true true true,
      corner f true false true] := by
  simp only [blockVertices, corner, List.cons.injEq, and_true]
  refine ⟨?_, ?_, ?_, ?_, ?_, ?_, ?_, ?_⟩ <;> ext <;>
    simp only [V3.add_x, V3.add_y, V3.add_z, V3.sub_x, V3.sub_y, V3.sub_z, V3.smul_x, V3.smul_y, V3.smul_z] <;>
    simp <;> ring

/-- C79: the points of the block are the convex combinations of its vertices. -/
theorem C79_hull (f : Frame3 K) (p : V3 K) :
    InBlock f p ↔ ∃ a b c : K, (0 ≤ a ∧ a ≤ 1) ∧ (0 ≤ b ∧ b ≤ 1) ∧ (0 ≤ c ∧ c ≤ 1) ∧
      let m (x : K) (b : Bool) : K := if b then x else 1 - x
      let t (i j k : Bool) := V3.smul (m a i * m b j * m c k) (corner f i j k)
      p = t false false false + t false true false + t true true false + t true false false + t false false true +
        t false true true + t true true true + t true false true := by
  constructor
  · rintro ⟨a, b, c, ha, hb, hc, rfl⟩
    rw [abs_le] at ha hb hc
    refine ⟨a + 1 / 2, b + 1 / 2, c + 1 / 2, ⟨by linarith, by linarith⟩, ⟨by linarith, by linarith⟩,
      ⟨by linarith, by linarith⟩, ?_⟩
    simp only [corner]
    ext <;> simp <;> ring
  · rintro ⟨a, b, c, ⟨a0, a1⟩, ⟨b0, b1⟩, ⟨c0, c1⟩, h⟩
    refine ⟨a - 1 / 2, b - 1 / 2, c - 1 / 2, abs_le.mpr ⟨by linarith, by linarith⟩, abs_le.mpr ⟨by linarith, by linarith⟩,
      abs_le.mpr ⟨by linarith, by linarith⟩, ?_⟩
    rw [h]
    simp only [corner]
    ext <;> simp <;> ring

/-- Two triples of signs that differ in exactly one place (specification). -/
def OneSign (s t : Bool × Bool × Bool) : Prop :=
  (s.1 ≠ t.1 ∧ s.2 = t.2) ∨ (s.1 = t.1 ∧ s.2.1 ≠ t.2.1 ∧ s.2.2 = t.2.2) ∨ (s.1 = t.1 ∧ s.2.1 = t.2.1 ∧ s.2.2 ≠ t.2.2)

/-- C79: there are twelve edges, they join exactly the pairs of corners that differ by one sign. -/
theorem C79_edges (f : Frame3 K) :
    (blockEdges f).length = 12 ∧
    (∀ p q, ((p, q) ∈ blockEdges f ∨ (q, p) ∈ blockEdges f) ↔
      ∃ s t : Bool × Bool × Bool, OneSign s t ∧ p = corner f s.1 s.2.1 s.2.2 ∧ q = corner f t.1 t.2.1 t.2.2) := by
  have e : blockEdges f = [(corner f false false false, corner f false true false),
      (corner f false true false, corner f true true false), (corner f true true false, corner f true false false),
      (corner f true false false, corner f false false false), (corner f false false true, corner f false true true),
      (corner f false true true, corner f true true true), (corner f true true true, corner f true false true),
      (corner f true false true, corner f false false true), (corner f false false false, corner f false false true),
      (corner f false true false, corner f false true true), (corner f true true false, corner f true true true),
      (corner f true false false, corner f true false true)] := by
    unfold blockEdges blockEdgeIndices
    rw [C79_vertices]
    rfl
  have mem : ∀ p q, (p, q) ∈ blockEdges f ∨ (q, p) ∈ blockEdges f →
      ∃ s t : Bool × Bool × Bool, OneSign s t ∧ p = corner f s.1 s.2.1 s.2.2 ∧ q = corner f t.1 t.2.1 t.2.2 := by
    intro p q h
    rw [e] at h
    simp only [List.mem_cons, Prod.mk.injEq, List.not_mem_nil, or_false] at h
    rcases h with h | h <;>
    · rcases h with ⟨rfl, rfl⟩ | ⟨rfl, rfl⟩ | ⟨rfl, rfl⟩ | ⟨rfl, rfl⟩ | ⟨rfl, rfl⟩ | ⟨rfl, rfl⟩ | ⟨rfl, rfl⟩ | ⟨rfl, rfl⟩ |
        ⟨rfl, rfl⟩ | ⟨rfl, rfl⟩ | ⟨rfl, rfl⟩ | ⟨rfl, rfl⟩ <;>
      exact ⟨(_, _, _), (_, _, _), by simp [OneSign], rfl, rfl⟩
  refine ⟨by rw [e]; rfl, fun p q => ⟨mem p q, ?_⟩⟩
  rintro ⟨⟨s1, s2, s3⟩, ⟨t1, t2, t3⟩, h, rfl, rfl⟩
  rw [e]
  revert h
  cases s1 <;> cases s2 <;> cases s3 <;> cases t1 <;> cases t2 <;> cases t3 <;> simp [OneSign]

/-- C79: the face contours cannot be computed: `face_contours3d` raises `IndexError` for every block. -/
theorem C79_faceContours_counterexample (f : Frame3 K) : blockFaceContours f = .error .indexError := by
  unfold blockFaceContours
  have h : (blockEdges f).length = 12 := (C79_edges f).1
  match hb : blockEdges f, h with
  | [_, _, _, _, _, _, _, _, _, _, _, _], _ => rfl

/-- C79: the centres of the faces. -/
theorem C79_facesCenter (f : Frame3 K) :
    blockFacesCenter f = [f.origin + V3.smul (-(1 / 2)) f.basis.u, f.origin + V3.smul (1 / 2) f.basis.u,
      f.origin + V3.smul (-(1 / 2)) f.basis.v, f.origin + V3.smul (1 / 2) f.basis.v,
      f.origin + V3.smul (-(1 / 2)) f.basis.w, f.origin + V3.smul (1 / 2) f.basis.w] := by
  simp only [blockFacesCenter, List.cons.injEq, and_true]
  refine ⟨?_, trivial, ?_, trivial, ?_⟩ <;> ext <;> simp <;> ring

/-- Full statement about bounding boxes: the box contains the block and is the smallest such box. -/
def C79_boundingBox_full_statement (K : Type) [Field K] [LinearOrder K] : Prop :=
  ∀ f : Frame3 K, ∃ b, blockBoundingBox f = .ok b ∧ (∀ p, InBlock f p → b.Mem p) ∧
    ∀ b' : Box3 K, (∀ p, InBlock f p → b'.Mem p) → b'.xmin ≤ b.xmin ∧ b.xmax ≤ b'.xmax ∧ b'.ymin ≤ b.ymin ∧
      b.ymax ≤ b'.ymax ∧ b'.zmin ≤ b.zmin ∧ b.zmax ≤ b'.zmax

/-- C79: a block whose first two edge vectors are exchanged (a quarter turn) is not in its bounding box. -/
theorem C79_boundingBox_counterexample : ¬ C79_boundingBox_full_statement ℚ := by
  intro h
  obtain ⟨b, hb, hm, -⟩ := h ⟨⟨0, 0, 0⟩, ⟨⟨0, 2, 0⟩, ⟨-2, 0, 0⟩, ⟨0, 0, 2⟩⟩⟩
  have e : b = ⟨0, 0, 0, 0, -1, 1⟩ := by
    have : blockBoundingBox (⟨⟨0, 0, 0⟩, ⟨⟨0, 2, 0⟩, ⟨-2, 0, 0⟩, ⟨0, 0, 2⟩⟩⟩ : Frame3 ℚ) = .ok ⟨0, 0, 0, 0, -1, 1⟩ := by
      decide +kernel
    rw [this] at hb
    exact (Except.ok.inj hb).symm
  have := hm ⟨0, 1, 0⟩ ⟨1 / 2, 0, 0, by norm_num, by norm_num, by norm_num, by ext <;> simp⟩
  rw [e] at this
  have h2 := this.2.2.2.1
  norm_num at h2

/-- Edge vectors along the coordinate axes (specification). -/
def AxisAligned (f : Frame3 K) : Prop :=
  f.basis.u.y = 0 ∧ f.basis.u.z = 0 ∧ f.basis.v.x = 0 ∧ f.basis.v.z = 0 ∧ f.basis.w.x = 0 ∧ f.basis.w.y = 0

omit [IsStrictOrderedRing K] in
theorem fromPoints_two (p q : V3 K) : Box3.fromPoints [p, q] = .ok ⟨min p.x q.x, max p.x q.x, min p.y q.y, max p.y q.y,
    min p.z q.z, max p.z q.z⟩ := rfl

theorem interval_iff (o h x : K) : (min (o - h / 2) (o + h / 2) ≤ x ∧ x ≤ max (o - h / 2) (o + h / 2)) ↔
    ∃ a, |a| ≤ 1 / 2 ∧ x = o + h * a := by
  constructor
  · rintro ⟨h1, h2⟩
    by_cases h0 : h = 0
    · subst h0
      simp only [zero_div, sub_zero, add_zero, min_self, max_self] at h1 h2
      exact ⟨0, by norm_num, by rw [mul_zero, add_zero]; exact le_antisymm h2 h1⟩
    · refine ⟨(x - o) / h, ?_, by field_simp; ring⟩
      rw [abs_div, div_le_iff₀ (abs_pos.mpr h0), abs_le]
      rcases le_total 0 h with hh | hh
      · rw [abs_of_nonneg hh]
        rw [min_eq_left (by linarith)] at h1
        rw [max_eq_right (by linarith)] at h2
        constructor <;> linarith
      · rw [abs_of_nonpos hh]
        rw [min_eq_right (by linarith)] at h1
        rw [max_eq_left (by linarith)] at h2
        constructor <;> linarith
  · rintro ⟨a, ha, rfl⟩
    rw [abs_le] at ha
    rcases le_total 0 h with hh | hh
    · rw [min_eq_left (by linarith), max_eq_right (by linarith)]
      constructor <;> nlinarith
    · rw [min_eq_right (by linarith), max_eq_left (by linarith)]
      constructor <;> nlinarith

theorem inBlock_aligned (f : Frame3 K) (h : AxisAligned f) (p : V3 K) : InBlock f p ↔
    (∃ a, |a| ≤ 1 / 2 ∧ p.x = f.origin.x + f.basis.u.x * a) ∧ (∃ b, |b| ≤ 1 / 2 ∧ p.y = f.origin.y + f.basis.v.y * b) ∧
    (∃ c, |c| ≤ 1 / 2 ∧ p.z = f.origin.z + f.basis.w.z * c) := by
  obtain ⟨h1, h2, h3, h4, h5, h6⟩ := h
  constructor
  · rintro ⟨a, b, c, ha, hb, hc, rfl⟩
    refine ⟨⟨a, ha, ?_⟩, ⟨b, hb, ?_⟩, ⟨c, hc, ?_⟩⟩ <;> simp [h1, h2, h3, h4, h5, h6]
  · rintro ⟨⟨a, ha, ea⟩, ⟨b, hb, eb⟩, ⟨c, hc, ec⟩⟩
    refine ⟨a, b, c, ha, hb, hc, ?_⟩
    ext <;> simp [h1, h2, h3, h4, h5, h6, ea, eb, ec]

/-- C79: for edge vectors along the coordinate axes (in either direction) the bounding box is the block. Missing: other
blocks (counterexample). -/
theorem C79_boundingBox_partial (f : Frame3 K) (h : AxisAligned f) :
    ∃ b, blockBoundingBox f = .ok b ∧ ∀ p, b.Mem p ↔ InBlock f p := by
  refine ⟨_, fromPoints_two _ _, fun p => ?_⟩
  rw [inBlock_aligned f h, ← interval_iff, ← interval_iff, ← interval_iff]
  simp only [Box3.Mem, V3.sub_x, V3.sub_y, V3.sub_z, V3.add_x, V3.add_y, V3.add_z]
  tauto

example : AxisAligned (⟨⟨1, 2, 3⟩, ⟨⟨2, 0, 0⟩, ⟨0, -3, 0⟩, ⟨0, 0, 4⟩⟩⟩ : Frame3 ℚ) := by simp [AxisAligned]

/-- C79: the block of a bounding box has the points of the box, and its bounding box is the box again. -/
theorem C79_fromBoundingBox (b : Box3 K) (hb : b.Valid) :
    (∀ p, InBlock (boxToFrame b) p ↔ b.Mem p) ∧ blockBoundingBox (boxToFrame b) = .ok b := by
  have ha : AxisAligned (boxToFrame b) := by simp [AxisAligned, boxToFrame]
  have e : blockBoundingBox (boxToFrame b) = .ok b := by
    obtain ⟨h1, h2, h3⟩ := hb
    unfold blockBoundingBox
    rw [fromPoints_two]
    congr 1
    simp only [boxToFrame, Box3.center]
    ext <;> simp only [V3.sub_x, V3.sub_y, V3.sub_z, V3.add_x, V3.add_y, V3.add_z]
    · rw [min_eq_left (by linarith)]; ring
    · rw [max_eq_right (by linarith)]; ring
    · rw [min_eq_left (by linarith)]; ring
    · rw [max_eq_right (by linarith)]; ring
    · rw [min_eq_left (by linarith)]; ring
    · rw [max_eq_right (by linarith)]; ring
  obtain ⟨b', hb', hm⟩ := C79_boundingBox_partial _ ha
  rw [e] at hb'
  cases hb'
  exact ⟨fun p => (hm p).symm, e⟩

example : (⟨0, 2, -1, 1, 3, 3⟩ : Box3 ℚ).Valid := by unfold Box3.Valid; norm_num
end

/-! ## Volume -/

/-- The signed volume of the parallelepiped on three vectors (specification). -/
def triple (u v w : V3 ℝ) : ℝ := V3.dot (V3.cross u v) w

/-- Full statement: the volume is that of the parallelepiped ("the frame has not to be orthogonal"). -/
def C79_volume_full_statement : Prop :=
  ∀ f : Frame3 ℝ, blockVolume f = |triple f.basis.u f.basis.v f.basis.w|

theorem blockVolume_sq (f : Frame3 ℝ) : blockVolume f ^ 2 =
    V3.dot f.basis.u f.basis.u * V3.dot f.basis.v f.basis.v * V3.dot f.basis.w f.basis.w := by
  rw [← V3.norm_sq, ← V3.norm_sq, ← V3.norm_sq]; unfold blockVolume blockSize; ring
theorem blockVolume_nonneg (f : Frame3 ℝ) : 0 ≤ blockVolume f :=
  mul_nonneg (mul_nonneg (V3.norm_nonneg _) (V3.norm_nonneg _)) (V3.norm_nonneg _)

/-- C79: `volume` is never below the volume of the block and it is right for pairwise orthogonal edge vectors.
Missing: oblique blocks (counterexample). -/
theorem C79_volume_partial (f : Frame3 ℝ) :
    |triple f.basis.u f.basis.v f.basis.w| ≤ blockVolume f ∧
    (V3.dot f.basis.u f.basis.v = 0 → V3.dot f.basis.u f.basis.w = 0 → V3.dot f.basis.v f.basis.w = 0 →
      blockVolume f = |triple f.basis.u f.basis.v f.basis.w|) := by
  obtain ⟨o, u, v, w⟩ := f
  have hv := blockVolume_sq ⟨o, u, v, w⟩
  dsimp only at hv ⊢
  have gram : triple u v w ^ 2 = V3.dot u u * (V3.dot v v * V3.dot w w - V3.dot v w ^ 2) -
      V3.dot u v * (V3.dot u v * V3.dot w w - V3.dot v w * V3.dot u w) +
      V3.dot u w * (V3.dot u v * V3.dot v w - V3.dot v v * V3.dot u w) := by
    simp only [triple, V3.dot, V3.cross]; ring
  have n0 := blockVolume_nonneg ⟨o, u, v, w⟩
  constructor
  · refine abs_le_of_sq_le_sq ?_ n0
    rw [hv]
    -- |u × v|² ≤ |u|²|v|² and (u × v)·w ≤ |u × v||w|
    have c1 : triple u v w ^ 2 ≤ V3.dot (V3.cross u v) (V3.cross u v) * V3.dot w w := by
      simp only [triple, V3.dot]
      generalize V3.cross u v = k
      nlinarith [sq_nonneg (k.x * w.y - k.y * w.x), sq_nonneg (k.x * w.z - k.z * w.x), sq_nonneg (k.y * w.z - k.z * w.y)]
    have c2 : V3.dot (V3.cross u v) (V3.cross u v) = V3.dot u u * V3.dot v v - V3.dot u v ^ 2 := by
      simp only [V3.dot, V3.cross]; ring
    have c3 : 0 ≤ V3.dot w w := by
      unfold V3.dot; nlinarith [mul_self_nonneg w.x, mul_self_nonneg w.y, mul_self_nonneg w.z]
    rw [c2] at c1
    nlinarith [mul_nonneg c3 (sq_nonneg (V3.dot u v))]
  · intro h1 h2 h3
    rw [h1, h2, h3] at gram
    have : blockVolume ⟨o, u, v, w⟩ ^ 2 = |triple u v w| ^ 2 := by rw [hv, sq_abs, gram]; ring
    exact (sq_eq_sq₀ n0 (abs_nonneg _)).mp this

example : V3.dot (⟨3, 4, 0⟩ : V3 ℝ) ⟨-8, 6, 0⟩ = 0 ∧ V3.dot (⟨3, 4, 0⟩ : V3 ℝ) ⟨0, 0, 2⟩ = 0 := by norm_num [V3.dot]

/-- C79: the volume of an oblique block is wrong: edges `(1,0,0)`, `(3,4,0)`, `(0,0,1)` give 5, not 4. -/
theorem C79_volume_counterexample : ¬ C79_volume_full_statement := by
  intro h
  have := h ⟨⟨0, 0, 0⟩, ⟨⟨1, 0, 0⟩, ⟨3, 4, 0⟩, ⟨0, 0, 1⟩⟩⟩
  have e : Real.sqrt 25 = 5 := by rw [show (25:ℝ) = 5 ^ 2 by norm_num, Real.sqrt_sq (by norm_num)]
  norm_num [blockVolume, blockSize, V3.norm, triple, V3.dot, V3.cross, e] at this

/-! ## Faces -/

/-- C79: with non-zero edge vectors (any directions) the six faces are exactly the boundary of the block: the points with
one coordinate equal to plus or minus one half. -/
theorem C79_shellFaces (f : Frame3 ℝ) (hu : f.basis.u ≠ ⟨0, 0, 0⟩) (hv : f.basis.v ≠ ⟨0, 0, 0⟩)
    (hw : f.basis.w ≠ ⟨0, 0, 0⟩) :
    ∃ faces, blockShellFaces f = some faces ∧ faces.length = 6 ∧
      ∀ p, (∃ r ∈ faces, ∃ x y, r.x1 ≤ x ∧ x ≤ r.x2 ∧ r.y1 ≤ y ∧ y ≤ r.y2 ∧ p = r.point x y) ↔
        ∃ a b c : ℝ, |a| ≤ 1 / 2 ∧ |b| ≤ 1 / 2 ∧ |c| ≤ 1 / 2 ∧ (|a| = 1 / 2 ∨ |b| = 1 / 2 ∨ |c| = 1 / 2) ∧
          p = f.origin + V3.smul a f.basis.u + V3.smul b f.basis.v + V3.smul c f.basis.w := by
  obtain ⟨o, U, V, W⟩ := f
  dsimp only at *
  obtain ⟨u, eu⟩ := V3.unitVector_some hu
  obtain ⟨v, ev⟩ := V3.unitVector_some hv
  obtain ⟨w, ew⟩ := V3.unitVector_some hw
  obtain ⟨pu, hU, -⟩ := V3.unitVector_spec eu
  obtain ⟨pv, hV, -⟩ := V3.unitVector_spec ev
  obtain ⟨pw, hW, -⟩ := V3.unitVector_spec ew
  unfold blockShellFaces
  simp only [eu, ev, ew]
  refine ⟨_, rfl, rfl, fun p => ?_⟩
  generalize V3.norm U = nu at *
  generalize V3.norm V = nv at *
  generalize V3.norm W = nw at *
  subst hU hV hW
  have key : ∀ (o p e1 e2 : V3 ℝ) (n1 n2 : ℝ), 0 < n1 → 0 < n2 → ((∃ x y, -(1 / 2 * n1) ≤ x ∧ x ≤ 1 / 2 * n1 ∧
      -(1 / 2 * n2) ≤ y ∧ y ≤ 1 / 2 * n2 ∧ p = V2.vecTo3d ⟨x, y⟩ o e1 e2) ↔
      ∃ b c : ℝ, |b| ≤ 1 / 2 ∧ |c| ≤ 1 / 2 ∧ p = o + V3.smul b (V3.smul n1 e1) + V3.smul c (V3.smul n2 e2)) := by
    intro o p e1 e2 n1 n2 h1 h2
    constructor
    · rintro ⟨x, y, a1, a2, a3, a4, rfl⟩
      refine ⟨x / n1, y / n2, ?_, ?_, ?_⟩
      · rw [abs_div, abs_of_pos h1, div_le_iff₀ h1, abs_le]; constructor <;> linarith
      · rw [abs_div, abs_of_pos h2, div_le_iff₀ h2, abs_le]; constructor <;> linarith
      · ext <;> simp [V2.vecTo3d] <;> field_simp
    · rintro ⟨b, c, hb, hc, rfl⟩
      rw [abs_le] at hb hc
      refine ⟨b * n1, c * n2, ?_, ?_, ?_, ?_, ?_⟩
      any_goals nlinarith
      ext <;> simp [V2.vecTo3d] <;> ring
  have half : ∀ x : ℝ, |x| = 1 / 2 ↔ x = -(1 / 2) ∨ x = 1 / 2 := by
    intro x; rw [abs_eq (by norm_num)]; tauto
  simp only [RectFace.point, List.mem_cons, List.not_mem_nil, or_false, exists_eq_or_imp, exists_eq_left]
  rw [key _ _ _ _ _ _ pv pw, key _ _ _ _ _ _ pv pw, key _ _ _ _ _ _ pw pu, key _ _ _ _ _ _ pw pu,
    key _ _ _ _ _ _ pu pv, key _ _ _ _ _ _ pu pv]
  constructor
  · rintro (⟨b, c, hb, hc, rfl⟩ | ⟨b, c, hb, hc, rfl⟩ | ⟨c, a, hc, ha, rfl⟩ | ⟨c, a, hc, ha, rfl⟩ | ⟨a, b, ha, hb, rfl⟩ |
      ⟨a, b, ha, hb, rfl⟩)
    · exact ⟨-(1 / 2), b, c, by norm_num, hb, hc, Or.inl (by norm_num), by ext <;> simp <;> ring⟩
    · exact ⟨1 / 2, b, c, by norm_num, hb, hc, Or.inl (by norm_num), by ext <;> simp⟩
    · exact ⟨a, -(1 / 2), c, ha, by norm_num, hc, Or.inr (Or.inl (by norm_num)), by ext <;> simp <;> ring⟩
    · exact ⟨a, 1 / 2, c, ha, by norm_num, hc, Or.inr (Or.inl (by norm_num)), by ext <;> simp <;> ring⟩
    · exact ⟨a, b, -(1 / 2), ha, hb, by norm_num, Or.inr (Or.inr (by norm_num)), by ext <;> simp <;> ring⟩
    · exact ⟨a, b, 1 / 2, ha, hb, by norm_num, Or.inr (Or.inr (by norm_num)), by ext <;> simp <;> ring⟩
  · rintro ⟨a, b, c, ha, hb, hc, h, rfl⟩
    rw [half, half, half] at h
    rcases h with (rfl | rfl) | (rfl | rfl) | (rfl | rfl)
    · exact Or.inl ⟨b, c, hb, hc, by ext <;> simp <;> ring⟩
    · exact Or.inr (Or.inl ⟨b, c, hb, hc, by ext <;> simp⟩)
    · exact Or.inr (Or.inr (Or.inl ⟨c, a, hc, ha, by ext <;> simp <;> ring⟩))
    · exact Or.inr (Or.inr (Or.inr (Or.inl ⟨c, a, hc, ha, by ext <;> simp <;> ring⟩)))
    · exact Or.inr (Or.inr (Or.inr (Or.inr (Or.inl ⟨a, b, ha, hb, by ext <;> simp <;> ring⟩))))
    · exact Or.inr (Or.inr (Or.inr (Or.inr (Or.inr ⟨a, b, ha, hb, by ext <;> simp <;> ring⟩))))

/-! ## Rotation, translation, change of frame -/

/-- C79: the translated block holds exactly the translated points. -/
theorem C79_translation (f : Frame3 ℝ) (d p : V3 ℝ) : InBlock (frameTranslation f d) (p + d) ↔ InBlock f p := by
  unfold InBlock frameTranslation
  constructor <;> rintro ⟨a, b, c, ha, hb, hc, h⟩ <;> refine ⟨a, b, c, ha, hb, hc, ?_⟩
  · have hx := congrArg V3.x h
    have hy := congrArg V3.y h
    have hz := congrArg V3.z h
    simp only [V3.add_x, V3.add_y, V3.add_z, V3.smul_x, V3.smul_y, V3.smul_z] at hx hy hz
    ext <;> simp <;> linarith
  · rw [h]; ext <;> simp <;> ring

/-- The points of a block are mapped to the points of a block by an affine injection. -/
theorem inBlock_affine (f g : Frame3 ℝ) (φ : V3 ℝ → V3 ℝ)
    (hφ : ∀ a b c : ℝ, φ (f.origin + V3.smul a f.basis.u + V3.smul b f.basis.v + V3.smul c f.basis.w) =
      g.origin + V3.smul a g.basis.u + V3.smul b g.basis.v + V3.smul c g.basis.w)
    (inj : Function.Injective φ) (p : V3 ℝ) : InBlock g (φ p) ↔ InBlock f p := by
  constructor <;> rintro ⟨a, b, c, ha, hb, hc, h⟩ <;> refine ⟨a, b, c, ha, hb, hc, ?_⟩
  · apply inj; rw [h, hφ]
  · rw [h, hφ]

theorem V3.rotation_injective (c axis : V3 ℝ) (t : ℝ) (ha : V3.dot axis axis = 1) :
    Function.Injective fun p => V3.rotation p c axis t := by
  intro p q h
  have hd : V3.dot (V3.rotation p c axis t - V3.rotation q c axis t) (V3.rotation p c axis t - V3.rotation q c axis t) =
      V3.dot (V3.rotation (p - q) ⟨0, 0, 0⟩ axis t) (V3.rotation (p - q) ⟨0, 0, 0⟩ axis t) := by
    congr 1 <;> (ext <;> simp [V3.rotation, V3.rotationCS, V3.dot, V3.cross] <;> ring)
  have h' : V3.rotation p c axis t = V3.rotation q c axis t := h
  rw [h', V3.rotation_dot _ _ _ _ ha] at hd
  have z : V3.dot (V3.rotation q c axis t - V3.rotation q c axis t) (V3.rotation q c axis t - V3.rotation q c axis t) = 0 := by
    simp [V3.dot]
  rw [z] at hd
  simp only [V3.dot, V3.sub_x, V3.sub_y, V3.sub_z] at hd
  have e1 := mul_self_nonneg (p.x - q.x)
  have e2 := mul_self_nonneg (p.y - q.y)
  have e3 := mul_self_nonneg (p.z - q.z)
  have f1 : p.x - q.x = 0 := mul_self_eq_zero.mp (by linarith)
  have f2 : p.y - q.y = 0 := mul_self_eq_zero.mp (by linarith)
  have f3 : p.z - q.z = 0 := mul_self_eq_zero.mp (by linarith)
  ext <;> linarith

open Volmdlr.Arc Volmdlr.Angle in
/-- C79: the rotated block holds exactly the rotated points, up to an offset of the centre that vanishes unless the centre
of rotation and the centre of the block are different but within `1e-6`. -/
theorem C79_rotation (f : Frame3 ℝ) (center axis : V3 ℝ) (angle : ℝ) (ha : V3.dot axis axis = 1) :
    ∃ d : V3 ℝ, (center = f.origin ∨ ¬ isClose3 center f.origin (1 / 10 ^ 6) → d = ⟨0, 0, 0⟩) ∧
      d = (frameRotation f center axis angle).origin - V3.rotation f.origin center axis angle ∧
      ∀ p, InBlock (frameRotation f center axis angle) (V3.rotation p center axis angle + d) ↔ InBlock f p := by
  refine ⟨(frameRotation f center axis angle).origin - V3.rotation f.origin center axis angle, ?_, rfl, fun p => ?_⟩
  · intro h
    unfold frameRotation
    by_cases hc : isClose3 center f.origin (1 / 10 ^ 6)
    · rw [if_pos hc]
      rcases h with h | h
      · ext <;> simp [h, V3.rotation, V3.rotationCS, V3.dot, V3.cross]
      · exact absurd hc h
    · rw [if_neg hc]; ext <;> simp
  · have hb : (frameRotation f center axis angle).basis = f.basis.rotation axis angle := by
      unfold frameRotation; split <;> rfl
    refine inBlock_affine f _ (fun p => V3.rotation p center axis angle +
      ((frameRotation f center axis angle).origin - V3.rotation f.origin center axis angle)) ?_ ?_ p
    · intro a b c
      rw [hb]
      generalize (frameRotation f center axis angle).origin = o'
      ext <;> simp [V3.rotation, V3.rotationCS, V3.dot, V3.cross, Basis3.rotation] <;> ring
    · intro p q h
      refine V3.rotation_injective center axis angle ha ?_
      have hx := congrArg V3.x h
      have hy := congrArg V3.y h
      have hz := congrArg V3.z h
      simp only [V3.add_x, V3.add_y, V3.add_z] at hx hy hz
      dsimp only
      ext <;> linarith

/-- C79: `frame_mapping` with side "old": the new block holds exactly the points whose coordinates in the given frame
are points of the old one (when no coordinate of the centre and edge vectors is in the flush band of C03). -/
theorem C79_frameMapping_old (f g s : Frame3 ℝ) (hg : g.Invertible) (h : f.frameMapping g "old" = .ok s)
    (h0 : (g.basis.transfer.cMulVec f.origin).NotTiny) (hu : (g.basis.transfer.cMulVec f.basis.u).NotTiny)
    (hv : (g.basis.transfer.cMulVec f.basis.v).NotTiny) (hw : (g.basis.transfer.cMulVec f.basis.w).NotTiny) (q p : V3 ℝ)
    (hp : IsCoord g q p) : InBlock s p ↔ InBlock f q := by
  have hs : s = ⟨g.basis.transfer.cMulVec f.origin + g.origin, ⟨g.basis.transfer.cMulVec f.basis.u,
      g.basis.transfer.cMulVec f.basis.v, g.basis.transfer.cMulVec f.basis.w⟩⟩ := by
    simp only [Frame3.frameMapping, Frame3.localToGlobal, Basis3.localToGlobal, M33.mulVec_eq h0, M33.mulVec_eq hu,
      M33.mulVec_eq hv, M33.mulVec_eq hw] at h
    simpa using h.symm
  subst hs
  have hp' : p = g.basis.transfer.cMulVec q + g.origin := by
    unfold IsCoord at hp; rw [hp]; ext <;> simp [M33.cMulVec, Basis3.transfer] <;> ring
  rw [hp']
  refine inBlock_affine f _ (fun q => g.basis.transfer.cMulVec q + g.origin) ?_ ?_ q
  · intro a b c; ext <;> simp [M33.cMulVec, Basis3.transfer] <;> ring
  · intro p q h
    obtain ⟨b, hb, -, h2⟩ := Frame3.inverse_ok hg
    have : g.basis.transfer.cMulVec p = g.basis.transfer.cMulVec q := by
      have hx := congrArg V3.x h
      have hy := congrArg V3.y h
      have hz := congrArg V3.z h
      simp only [V3.add_x, V3.add_y, V3.add_z] at hx hy hz
      ext <;> linarith
    have e := congrArg b.cMulVec this
    rw [← M33.cMulVec_mul, ← M33.cMulVec_mul, h2, M33.cMulVec_one, M33.cMulVec_one] at e
    exact e

/-! ## Subdivision -/

/-- Full statement: the small blocks cover the block and nothing else. -/
def C79_subdivide_full_statement : Prop :=
  ∀ (f : Frame3 ℝ) (nx ny nz : ℕ), 0 < nx → 0 < ny → 0 < nz → f.basis.u ≠ ⟨0, 0, 0⟩ → f.basis.v ≠ ⟨0, 0, 0⟩ →
    f.basis.w ≠ ⟨0, 0, 0⟩ → ∀ p, InBlock f p ↔ ∃ g ∈ subdivideBlock f nx ny nz, InBlock g p

/-- C79: a block with edge vectors `(0,4,0)`, `(2,0,0)`, `(0,0,2)` is not the union of its small blocks. -/
theorem C79_subdivide_counterexample : ¬ C79_subdivide_full_statement := by
  intro h
  have e4 : Real.sqrt 16 = 4 := by rw [show (16:ℝ) = 4 ^ 2 by norm_num, Real.sqrt_sq (by norm_num)]
  have e2 : Real.sqrt 4 = 2 := by rw [show (4:ℝ) = 2 ^ 2 by norm_num, Real.sqrt_sq (by norm_num)]
  have n4 : V3.norm (⟨0, 4, 0⟩ : V3 ℝ) = 4 := by norm_num [V3.norm, e4]
  have n2 : V3.norm (⟨2, 0, 0⟩ : V3 ℝ) = 2 := by norm_num [V3.norm, e2]
  have n2' : V3.norm (⟨0, 0, 2⟩ : V3 ℝ) = 2 := by norm_num [V3.norm, e2]
  have := (h ⟨⟨0, 0, 0⟩, ⟨⟨0, 4, 0⟩, ⟨2, 0, 0⟩, ⟨0, 0, 2⟩⟩⟩ 1 1 1 one_pos one_pos one_pos
    (by intro h; have := congrArg V3.y h; norm_num at this) (by intro h; have := congrArg V3.x h; norm_num at this)
    (by intro h; have := congrArg V3.z h; norm_num at this) ⟨0, 2, 0⟩).mp
      ⟨1 / 2, 0, 0, by norm_num, by norm_num, by norm_num, by ext <;> simp <;> norm_num⟩
  obtain ⟨g, hg, a, b, c, ha, hb, hc, hp⟩ := this
  simp only [subdivideBlock, blockSize, n4, n2, n2', List.range_one, List.flatMap_cons, List.flatMap_nil, List.map_cons,
    List.map_nil, List.append_nil, List.mem_cons, List.not_mem_nil, or_false] at hg
  subst hg
  have hy := congrArg V3.y hp
  simp [V3.translation] at hy
  rw [abs_le] at hb
  linarith [hb.2]

theorem mem_subdivide (f g : Frame3 ℝ) (nx ny nz : ℕ) : g ∈ subdivideBlock f nx ny nz ↔ ∃ i < nx, ∃ j < ny, ∃ k < nz,
    g = ⟨⟨f.origin.x - (blockSize f).x / 2 + (blockSize f).x / nx * (i + 1 / 2),
      f.origin.y - (blockSize f).y / 2 + (blockSize f).y / ny * (j + 1 / 2),
      f.origin.z - (blockSize f).z / 2 + (blockSize f).z / nz * (k + 1 / 2)⟩,
      ⟨⟨(blockSize f).x / nx, 0, 0⟩, ⟨0, (blockSize f).y / ny, 0⟩, ⟨0, 0, (blockSize f).z / nz⟩⟩⟩ := by
  simp only [subdivideBlock, List.mem_flatMap, List.mem_map, List.mem_range]
  constructor
  · rintro ⟨k, hk, j, hj, i, hi, rfl⟩
    refine ⟨i, hi, j, hj, k, hk, ?_⟩
    congr 1
    ext <;> simp [V3.translation] <;> ring
  · rintro ⟨i, hi, j, hj, k, hk, rfl⟩
    refine ⟨k, hk, j, hj, i, hi, ?_⟩
    congr 1
    ext <;> simp [V3.translation] <;> ring

/-- A cell number exists for every point of an interval of positive length cut into `n` cells. -/
theorem cell_exists (n : ℕ) (hn : 0 < n) (s : ℝ) (hs : 0 < s) (t : ℝ) (h0 : 0 ≤ t) (h1 : t ≤ s) :
    ∃ i < n, s / n * i ≤ t ∧ t ≤ s / n * (i + 1) := by
  have hn' : (0:ℝ) < n := by exact_mod_cast hn
  rcases eq_or_lt_of_le h1 with h1 | h1
  · refine ⟨n - 1, by omega, ?_, ?_⟩
    · rw [Nat.cast_sub hn, h1, div_mul_eq_mul_div, div_le_iff₀ hn']; push_cast; nlinarith
    · rw [Nat.cast_sub hn, h1, div_mul_eq_mul_div, le_div_iff₀ hn']; push_cast; nlinarith
  · refine ⟨⌊t * n / s⌋₊, ?_, ?_, ?_⟩
    · have : t * n / s < n := by rw [div_lt_iff₀ hs]; nlinarith
      exact (Nat.floor_lt (by positivity)).mpr this
    · have := Nat.floor_le (show (0:ℝ) ≤ t * n / s by positivity)
      rw [le_div_iff₀ hs] at this
      rw [div_mul_eq_mul_div, div_le_iff₀ hn']; linarith
    · have := (Nat.lt_floor_add_one (t * n / s)).le
      rw [div_le_iff₀ hs] at this
      rw [div_mul_eq_mul_div, le_div_iff₀ hn']; linarith

/-- C79: for edge vectors along the positive coordinate axes (as those of a bounding box of positive size) the small
blocks cover exactly the block, their number is the product of the divisions, and two different ones share no interior
point. Missing: other blocks (counterexample). -/
theorem C79_subdivide_partial (f : Frame3 ℝ) (h : AxisAligned f) (hx : 0 < f.basis.u.x) (hy : 0 < f.basis.v.y)
    (hz : 0 < f.basis.w.z) (nx ny nz : ℕ) (h1 : 0 < nx) (h2 : 0 < ny) (h3 : 0 < nz) :
    (subdivideBlock f nx ny nz).length = nx * ny * nz ∧
    (∀ p, InBlock f p ↔ ∃ g ∈ subdivideBlock f nx ny nz, InBlock g p) ∧
    (∀ g ∈ subdivideBlock f nx ny nz, blockVolume g = blockVolume f / (nx * ny * nz)) := by
  have h' := h
  obtain ⟨a1, a2, a3, a4, a5, a6⟩ := h'
  have sx : (blockSize f).x = f.basis.u.x := by simp [blockSize, V3.norm, a1, a2, Real.sqrt_mul_self hx.le]
  have sy : (blockSize f).y = f.basis.v.y := by simp [blockSize, V3.norm, a3, a4, Real.sqrt_mul_self hy.le]
  have sz : (blockSize f).z = f.basis.w.z := by simp [blockSize, V3.norm, a5, a6, Real.sqrt_mul_self hz.le]
  have p1 : (0:ℝ) < nx := by exact_mod_cast h1
  have p2 : (0:ℝ) < ny := by exact_mod_cast h2
  have p3 : (0:ℝ) < nz := by exact_mod_cast h3
  refine ⟨?_, fun p => ?_, fun g hg => ?_⟩
  · simp [subdivideBlock, List.length_flatMap]; ring
  · rw [inBlock_aligned f h, ← interval_iff, ← interval_iff, ← interval_iff]
    rw [min_eq_left (by linarith), max_eq_right (by linarith), min_eq_left (by linarith), max_eq_right (by linarith),
      min_eq_left (by linarith), max_eq_right (by linarith)]
    constructor
    · rintro ⟨⟨x1, x2⟩, ⟨y1, y2⟩, ⟨z1, z2⟩⟩
      obtain ⟨i, hi, i1, i2⟩ := cell_exists nx h1 _ hx (p.x - (f.origin.x - f.basis.u.x / 2)) (by linarith) (by linarith)
      obtain ⟨j, hj, j1, j2⟩ := cell_exists ny h2 _ hy (p.y - (f.origin.y - f.basis.v.y / 2)) (by linarith) (by linarith)
      obtain ⟨k, hk, k1, k2⟩ := cell_exists nz h3 _ hz (p.z - (f.origin.z - f.basis.w.z / 2)) (by linarith) (by linarith)
      refine ⟨_, (mem_subdivide f _ nx ny nz).mpr ⟨i, hi, j, hj, k, hk, rfl⟩, ?_⟩
      rw [inBlock_aligned _ (by simp [AxisAligned]), ← interval_iff, ← interval_iff, ← interval_iff]
      dsimp only
      rw [sx, sy, sz]
      have q1 := div_pos hx p1
      have q2 := div_pos hy p2
      have q3 := div_pos hz p3
      generalize f.basis.u.x / (nx:ℝ) = cx at *
      generalize f.basis.v.y / (ny:ℝ) = cy at *
      generalize f.basis.w.z / (nz:ℝ) = cz at *
      rw [min_eq_left (by linarith), max_eq_right (by linarith), min_eq_left (by linarith), max_eq_right (by linarith),
        min_eq_left (by linarith), max_eq_right (by linarith)]
      refine ⟨⟨?_, ?_⟩, ⟨?_, ?_⟩, ?_, ?_⟩ <;> linarith
    · rintro ⟨g, hg, hp⟩
      obtain ⟨i, hi, j, hj, k, hk, rfl⟩ := (mem_subdivide f _ nx ny nz).mp hg
      rw [inBlock_aligned _ (by simp [AxisAligned]), ← interval_iff, ← interval_iff, ← interval_iff] at hp
      dsimp only at hp
      rw [sx, sy, sz] at hp
      have bound : ∀ (n : ℕ) (i : ℕ) (s : ℝ), (0:ℝ) < n → i < n → 0 < s → 0 ≤ s / n * i ∧ s / n * (i + 1) ≤ s ∧ 0 < s / n := by
        intro n i s hn hi hs
        have hi' : (i:ℝ) + 1 ≤ n := by exact_mod_cast hi
        refine ⟨by positivity, ?_, div_pos hs hn⟩
        rw [div_mul_eq_mul_div, div_le_iff₀ hn]; nlinarith
      obtain ⟨b1, b2, b3⟩ := bound nx i _ p1 hi hx
      obtain ⟨b4, b5, b6⟩ := bound ny j _ p2 hj hy
      obtain ⟨b7, b8, b9⟩ := bound nz k _ p3 hk hz
      generalize f.basis.u.x / (nx:ℝ) = cx at *
      generalize f.basis.v.y / (ny:ℝ) = cy at *
      generalize f.basis.w.z / (nz:ℝ) = cz at *
      rw [min_eq_left (by linarith), max_eq_right (by linarith), min_eq_left (by linarith), max_eq_right (by linarith),
        min_eq_left (by linarith), max_eq_right (by linarith)] at hp
      obtain ⟨⟨c1, c2⟩, ⟨c3, c4⟩, c5, c6⟩ := hp
      refine ⟨⟨?_, ?_⟩, ⟨?_, ?_⟩, ?_, ?_⟩ <;> linarith
  · obtain ⟨i, hi, j, hj, k, hk, rfl⟩ := (mem_subdivide f _ nx ny nz).mp hg
    have e : ∀ x : ℝ, 0 ≤ x → Real.sqrt (x * x) = x := fun x hx => Real.sqrt_mul_self hx
    simp only [blockVolume]
    rw [sx, sy, sz]
    simp only [blockSize, V3.norm, mul_zero, zero_add, add_zero]
    rw [e _ (by positivity), e _ (by positivity), e _ (by positivity)]
    field_simp

/-- C79: interior points belong to one small block only. -/
theorem C79_subdivide_disjoint (f : Frame3 ℝ) (hx : 0 < (blockSize f).x) (hy : 0 < (blockSize f).y)
    (hz : 0 < (blockSize f).z) (nx ny nz : ℕ) (h1 : 0 < nx) (h2 : 0 < ny) (h3 : 0 < nz) (g g' : Frame3 ℝ)
    (hg : g ∈ subdivideBlock f nx ny nz) (hg' : g' ∈ subdivideBlock f nx ny nz) (p : V3 ℝ) (a b c : ℝ) (ha : |a| < 1 / 2)
    (hb : |b| < 1 / 2) (hc : |c| < 1 / 2)
    (hp : p = g.origin + V3.smul a g.basis.u + V3.smul b g.basis.v + V3.smul c g.basis.w) (hp' : InBlock g' p) : g = g' := by
  obtain ⟨i, hi, j, hj, k, hk, rfl⟩ := (mem_subdivide f _ nx ny nz).mp hg
  obtain ⟨i', hi', j', hj', k', hk', rfl⟩ := (mem_subdivide f _ nx ny nz).mp hg'
  obtain ⟨a', b', c', ha', hb', hc', hp'⟩ := hp'
  rw [hp] at hp'
  have ex := congrArg V3.x hp'
  have ey := congrArg V3.y hp'
  have ez := congrArg V3.z hp'
  simp only [V3.add_x, V3.add_y, V3.add_z, V3.smul_x, V3.smul_y, V3.smul_z, zero_mul, add_zero] at ex ey ez
  have key : ∀ (n i i' : ℕ) (s o a a' : ℝ), 0 < n → 0 < s → |a| < 1 / 2 → |a'| ≤ 1 / 2 →
      o + s / n * (i + 1 / 2) + s / n * a = o + s / n * (i' + 1 / 2) + s / n * a' → i = i' := by
    intro n i i' s o a a' hn hs ha ha' h
    have hn' : (0:ℝ) < n := by exact_mod_cast hn
    have hc := div_pos hs hn'
    generalize s / (n:ℝ) = c at *
    have : c * ((i:ℝ) + a - i' - a') = 0 := by linarith
    have e : (i:ℝ) + a - i' - a' = 0 := (mul_eq_zero.mp this).resolve_left hc.ne'
    rw [abs_lt] at ha
    rw [abs_le] at ha'
    have l1 : (i:ℝ) < i' + 1 := by linarith
    have l2 : (i':ℝ) < i + 1 := by linarith
    have l1' : i < i' + 1 := by exact_mod_cast l1
    have l2' : i' < i + 1 := by exact_mod_cast l2
    omega
  have r1 := key nx i i' _ _ a a' h1 hx ha ha' ex
  have r2 := key ny j j' _ _ b b' h2 hy hb hb' (by linarith)
  have r3 := key nz k k' _ _ c c' h3 hz hc hc' (by linarith)
  subst r1 r2 r3
  rfl

example : AxisAligned (⟨⟨1, 2, 3⟩, ⟨⟨2, 0, 0⟩, ⟨0, 3, 0⟩, ⟨0, 0, 4⟩⟩⟩ : Frame3 ℝ) := by simp [AxisAligned]

/-! ## Cut by an orthogonal plane -/

/-- Full statement: the corners of the cut are points of the block, on the plane. -/
def C79_cut_full_statement : Prop :=
  ∀ (f plane : Frame3 ℝ) (l : List (V2 ℝ)), AxisAligned f → cutByOrthogonalPlane f plane = .ok l →
    ∀ q ∈ l, InBlock f (V2.vecTo3d q plane.origin plane.basis.u plane.basis.v)

/-- C79: a horizontal plane far above the block still gives a face. -/
theorem C79_cut_counterexample : ¬ C79_cut_full_statement := by
  intro h
  have hb : blockBoundingBox (⟨⟨0, 0, 0⟩, ⟨⟨2, 0, 0⟩, ⟨0, 2, 0⟩, ⟨0, 0, 2⟩⟩⟩ : Frame3 ℝ) = .ok ⟨-1, 1, -1, 1, -1, 1⟩ := by
    unfold blockBoundingBox; rw [fromPoints_two]; norm_num
  have := h ⟨⟨0, 0, 0⟩, ⟨⟨2, 0, 0⟩, ⟨0, 2, 0⟩, ⟨0, 0, 2⟩⟩⟩ ⟨⟨0, 0, 9⟩, ⟨⟨1, 0, 0⟩, ⟨0, 1, 0⟩, ⟨0, 0, 1⟩⟩⟩
    [⟨-1, -1⟩, ⟨1, -1⟩, ⟨1, 1⟩, ⟨-1, 1⟩] (by simp [AxisAligned]) (by
      unfold cutByOrthogonalPlane; rw [hb]
      simp [V3.dot, V3.to2d, bind, Except.bind, pure, Except.pure]) ⟨-1, -1⟩ (by simp)
  obtain ⟨a, b, c, ha, hb, hc, hp⟩ := this
  have hz := congrArg V3.z hp
  simp [V2.vecTo3d] at hz
  rw [abs_le] at hc
  linarith [hc.2]

/-- C79: a horizontal plane through an axis-aligned block cuts it in the rectangle returned. Missing: planes that miss the
block or are oblique (both are accepted; counterexample). -/
theorem C79_cut_partial (f : Frame3 ℝ) (h : AxisAligned f) (o : V3 ℝ) (b : Box3 ℝ) (hb : blockBoundingBox f = .ok b)
    (hz1 : b.zmin ≤ o.z) (hz2 : o.z ≤ b.zmax) :
    ∃ l, cutByOrthogonalPlane f ⟨o, ⟨⟨1, 0, 0⟩, ⟨0, 1, 0⟩, ⟨0, 0, 1⟩⟩⟩ = .ok l ∧
      (∀ q ∈ l, InBlock f (V2.vecTo3d q o ⟨1, 0, 0⟩ ⟨0, 1, 0⟩)) ∧
      ∀ p, InBlock f p → p.z = o.z → ∃ a c d e : ℝ, l = [⟨a, c⟩, ⟨d, c⟩, ⟨d, e⟩, ⟨a, e⟩] ∧
        a ≤ p.x - o.x ∧ p.x - o.x ≤ d ∧ c ≤ p.y - o.y ∧ p.y - o.y ≤ e := by
  obtain ⟨b', hb', hm⟩ := C79_boundingBox_partial f h
  rw [hb] at hb'
  cases hb'
  have hval : b.xmin ≤ b.xmax ∧ b.ymin ≤ b.ymax := by
    have := hb
    unfold blockBoundingBox at this
    rw [fromPoints_two] at this
    cases this
    exact ⟨min_le_max, min_le_max⟩
  refine ⟨[⟨b.xmin - o.x, b.ymin - o.y⟩, ⟨b.xmax - o.x, b.ymin - o.y⟩, ⟨b.xmax - o.x, b.ymax - o.y⟩,
    ⟨b.xmin - o.x, b.ymax - o.y⟩], ?_, ?_, ?_⟩
  · unfold cutByOrthogonalPlane; rw [hb]
    simp [V3.dot, V3.to2d, bind, Except.bind, pure, Except.pure]
  · intro q hq
    rw [← hm]
    simp only [List.mem_cons, List.not_mem_nil, or_false] at hq
    rcases hq with rfl | rfl | rfl | rfl <;> simp [Box3.Mem, V2.vecTo3d, hz1, hz2, hval.1, hval.2]
  · intro p hp hz
    obtain ⟨h1, h2, h3, h4, -, -⟩ := (hm p).mpr hp
    exact ⟨_, _, _, _, rfl, by linarith, by linarith, by linarith, by linarith⟩
end Volmdlr.Solid
