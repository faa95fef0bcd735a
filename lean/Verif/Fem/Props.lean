import Verif.Fem.Model
import Verif.Frame.Props
import Mathlib.Tactic.Linarith
import Mathlib.Tactic.LinearCombination
import Mathlib.Tactic.FieldSimp
import Mathlib.Tactic.Positivity
import Mathlib.Algebra.Order.Archimedean.Real.Basic

/-!
# Properties C59: form functions of the finite elements
-/

namespace Volmdlr.Fem

variable {K : Type*} [Field K] [LinearOrder K] [IsStrictOrderedRing K]

/-- Specification: value at a point of the affine function with the given coefficients. -/
def evalTri (c : V3 K) (p : V2 K) : K := c.x + c.y * p.x + c.z * p.y
/-- Specification: value at a point of the affine function with the given coefficients. -/
def evalTet (c : K × K × K × K) (p : V3 K) : K := c.1 + c.2.1 * p.x + c.2.2.1 * p.y + c.2.2.2 * p.z

/-- Specification: three functions that are one at their own node, zero at the others, and sum to one everywhere. -/
def IsNodalBasis3 (p0 p1 p2 : V2 K) (n0 n1 n2 : V2 K → K) : Prop :=
  n0 p0 = 1 ∧ n0 p1 = 0 ∧ n0 p2 = 0 ∧ n1 p0 = 0 ∧ n1 p1 = 1 ∧ n1 p2 = 0 ∧ n2 p0 = 0 ∧ n2 p1 = 0 ∧ n2 p2 = 1 ∧
    ∀ p, n0 p + n1 p + n2 p = 1

/-- **C59, full statement for triangles.** For every element which is not flat the form functions are a nodal basis, a flat element raises
an error.  False: see the two counterexamples. -/
def C59_triangle_full_statement (K : Type) [Field K] [LinearOrder K] : Prop :=
  ∀ p0 p1 p2 : V2 K,
    (V2.cross (p1 - p0) (p2 - p0) ≠ 0 → ∃ a b c, triForm p0 p1 p2 = .ok (a, b, c) ∧
      IsNodalBasis3 p0 p1 p2 (evalTri a) (evalTri b) (evalTri c)) ∧
    (V2.cross (p1 - p0) (p2 - p0) = 0 → triForm p0 p1 p2 = .error .valueError)

/-- **C59.** A triangle with sides of `1e-6` is refused as flat. -/
theorem C59_small_triangle_counterexample :
    triForm (⟨0, 0⟩ : V2 ℚ) ⟨1 / 10 ^ 6, 0⟩ ⟨0, 1 / 10 ^ 6⟩ = .error .valueError ∧ ¬C59_triangle_full_statement ℚ := by
  have h : triForm (⟨0, 0⟩ : V2 ℚ) ⟨1 / 10 ^ 6, 0⟩ ⟨0, 1 / 10 ^ 6⟩ = .error .valueError := by decide +kernel
  refine ⟨h, fun hf => ?_⟩
  obtain ⟨a, b, c, e, -⟩ := (hf ⟨0, 0⟩ ⟨1 / 10 ^ 6, 0⟩ ⟨0, 1 / 10 ^ 6⟩).1 (by decide +kernel)
  rw [h] at e
  cases e

/-- **C59.** For a triangle with sides of `1e17` the linear coefficients are flushed to zero: the form function of the second node is
zero there. -/
theorem C59_large_triangle_counterexample :
    triForm (⟨0, 0⟩ : V2 ℚ) ⟨10 ^ 17, 0⟩ ⟨0, 10 ^ 17⟩ = .ok (⟨1, 0, 0⟩, ⟨0, 0, 0⟩, ⟨0, 0, 0⟩) ∧ ¬C59_triangle_full_statement ℚ := by
  have h : triForm (⟨0, 0⟩ : V2 ℚ) ⟨10 ^ 17, 0⟩ ⟨0, 10 ^ 17⟩ = .ok (⟨1, 0, 0⟩, ⟨0, 0, 0⟩, ⟨0, 0, 0⟩) := by decide +kernel
  refine ⟨h, fun hf => ?_⟩
  obtain ⟨a, b, c, e, -, -, -, -, hb, -⟩ := (hf ⟨0, 0⟩ ⟨10 ^ 17, 0⟩ ⟨0, 10 ^ 17⟩).1 (by decide +kernel)
  rw [h] at e
  simp only [Except.ok.injEq, Prod.mk.injEq] at e
  rw [← e.2.1] at hb
  simp [evalTri] at hb

lemma flush_near (u : K) : |flush u - u| ≤ 1 / 10 ^ 16 := by
  unfold flush
  split_ifs with h
  · rw [zero_sub, abs_neg]; exact h.le
  · rw [sub_self, abs_zero]; positivity

/-- The values of two affine functions with close coefficients are close. -/
lemma evalTri_near {c d : V3 K} {e : K} (hx : |c.x - d.x| ≤ e) (hy : |c.y - d.y| ≤ e) (hz : |c.z - d.z| ≤ e) (p : V2 K) :
    |evalTri c p - evalTri d p| ≤ e * (1 + |p.x| + |p.y|) := by
  have : evalTri c p - evalTri d p = (c.x - d.x) + (c.y - d.y) * p.x + (c.z - d.z) * p.y := by unfold evalTri; ring
  rw [this]
  refine (abs_add_three _ _ _).trans ?_
  rw [abs_mul, abs_mul]
  have h1 := mul_le_mul_of_nonneg_right hy (abs_nonneg p.x)
  have h2 := mul_le_mul_of_nonneg_right hz (abs_nonneg p.y)
  linarith

lemma flushed_near (m : M33 K) (v : V3 K) (p : V2 K) :
    |evalTri (M33.mulVec m v) p - evalTri (M33.cMulVec m v) p| ≤ 1 / 10 ^ 16 * (1 + |p.x| + |p.y|) :=
  evalTri_near (flush_near _) (flush_near _) (flush_near _) p

/-- The exact form functions. -/
lemma triForm_spec (p0 p1 p2 : V2 K) :
    (|V2.cross (p1 - p0) (p2 - p0)| ≤ 1 / 10 ^ 12 ∧ triForm p0 p1 p2 = .error .valueError) ∨
    (1 / 10 ^ 12 < |V2.cross (p1 - p0) (p2 - p0)| ∧ ∃ m : M33 K,
      triForm p0 p1 p2 = .ok (M33.mulVec m ⟨1, 0, 0⟩, M33.mulVec m ⟨0, 1, 0⟩, M33.mulVec m ⟨0, 0, 1⟩) ∧
      IsNodalBasis3 p0 p1 p2 (evalTri (M33.cMulVec m ⟨1, 0, 0⟩)) (evalTri (M33.cMulVec m ⟨0, 1, 0⟩))
        (evalTri (M33.cMulVec m ⟨0, 0, 1⟩))) := by
  have hdet : M33.det ⟨1, p0.x, p0.y, 1, p1.x, p1.y, 1, p2.x, p2.y⟩ = V2.cross (p1 - p0) (p2 - p0) := by
    simp only [M33.det, V2.cross, V2.sub_x, V2.sub_y]; ring
  rcases C05_inverse33 (⟨1, p0.x, p0.y, 1, p1.x, p1.y, 1, p2.x, p2.y⟩ : M33 K) with ⟨h, he⟩ | ⟨h, m, he, h1, h2⟩
  · left
    rw [hdet] at h
    refine ⟨h, ?_⟩
    unfold triForm; rw [he]
  · right
    rw [hdet] at h
    refine ⟨h, m, by unfold triForm; rw [he], ?_⟩
    have g := M33.ext_iff.1 h1
    have g2 := M33.ext_iff.1 h2
    simp only [M33.mul, M33.one, one_mul, mul_one] at g g2
    simp only [IsNodalBasis3, evalTri, M33.cMulVec, mul_one, mul_zero, add_zero, zero_add]
    obtain ⟨a1, a2, a3, a4, a5, a6, a7, a8, a9⟩ := g
    obtain ⟨b1, b2, b3, b4, b5, b6, b7, b8, b9⟩ := g2
    refine ⟨by linear_combination a1, by linear_combination a4, by linear_combination a7, by linear_combination a2,
      by linear_combination a5, by linear_combination a8, by linear_combination a3, by linear_combination a6, by linear_combination a9, ?_⟩
    intro p
    linear_combination b1 + p.x * b4 + p.y * b7

/-- **C59 (partial).** A triangular element is refused exactly when twice its area is at most `1e-12`; otherwise its three form functions
are, at every point of the plane, within `1e-16 (1 + |x| + |y|)` of functions that are one at their node, zero at the others and sum to
one everywhere.  Missing: exactness, and elements smaller than the threshold (counterexamples above). -/
theorem C59_triangle_partial (p0 p1 p2 : V2 K) :
    (triArea p0 p1 p2 ≤ 1 / 10 ^ 12 / 2 ↔ triForm p0 p1 p2 = .error .valueError) ∧
    (1 / 10 ^ 12 / 2 < triArea p0 p1 p2 → ∃ a b c, triForm p0 p1 p2 = .ok (a, b, c) ∧
      ∃ n0 n1 n2, IsNodalBasis3 p0 p1 p2 n0 n1 n2 ∧ ∀ p : V2 K,
        |evalTri a p - n0 p| ≤ 1 / 10 ^ 16 * (1 + |p.x| + |p.y|) ∧ |evalTri b p - n1 p| ≤ 1 / 10 ^ 16 * (1 + |p.x| + |p.y|) ∧
        |evalTri c p - n2 p| ≤ 1 / 10 ^ 16 * (1 + |p.x| + |p.y|)) := by
  unfold triArea
  rcases triForm_spec p0 p1 p2 with ⟨h, he⟩ | ⟨h, m, he, hn⟩
  · refine ⟨⟨fun _ => he, fun _ => by linarith⟩, fun h' => by linarith⟩
  · refine ⟨⟨fun h' => by linarith, fun h' => by rw [he] at h'; cases h'⟩, fun _ => ⟨_, _, _, he, _, _, _, hn, fun p => ⟨?_, ?_, ?_⟩⟩⟩
    · exact flushed_near _ _ _
    · exact flushed_near _ _ _
    · exact flushed_near _ _ _

/-- **C59 (partial).** When no coefficient computed is below `1e-16` (they are zero or larger) the form functions returned are exactly a
nodal basis. -/
theorem C59_triangle_exact_partial (p0 p1 p2 : V2 K) (h : 1 / 10 ^ 12 < |V2.cross (p1 - p0) (p2 - p0)|)
    (hx : ∀ u ∈ [p1.x * p2.y - p1.y * p2.x, p2.x * p0.y - p2.y * p0.x, p0.x * p1.y - p0.y * p1.x, p1.y - p2.y, p2.y - p0.y, p0.y - p1.y,
      p2.x - p1.x, p0.x - p2.x, p1.x - p0.x], u = 0 ∨ |V2.cross (p1 - p0) (p2 - p0)| * (1 / 10 ^ 16) ≤ |u|) :
    ∃ a b c, triForm p0 p1 p2 = .ok (a, b, c) ∧ IsNodalBasis3 p0 p1 p2 (evalTri a) (evalTri b) (evalTri c) := by
  have hdet : M33.det ⟨1, p0.x, p0.y, 1, p1.x, p1.y, 1, p2.x, p2.y⟩ = V2.cross (p1 - p0) (p2 - p0) := by
    simp only [M33.det, V2.cross, V2.sub_x, V2.sub_y]; ring
  set D := V2.cross (p1 - p0) (p2 - p0) with hD
  have hD0 : D ≠ 0 := by rintro e; rw [e, abs_zero] at h; linarith [show (0 : K) < 1 / 10 ^ 12 by positivity]
  have hDe : D = (p1.x - p0.x) * (p2.y - p0.y) - (p1.y - p0.y) * (p2.x - p0.x) := rfl
  have hfl : ∀ u ∈ [p1.x * p2.y - p1.y * p2.x, p2.x * p0.y - p2.y * p0.x, p0.x * p1.y - p0.y * p1.x, p1.y - p2.y, p2.y - p0.y, p0.y - p1.y,
      p2.x - p1.x, p0.x - p2.x, p1.x - p0.x], flush (1 / D * u) = u / D := by
    intro u hu
    unfold flush
    rcases hx u hu with e | e
    · rw [e]; simp
    · rw [if_neg, one_div_mul_eq_div]
      rw [not_lt, one_div_mul_eq_div, abs_div, le_div_iff₀ (abs_pos.2 hD0)]
      linarith
  simp only [List.forall_mem_cons, List.not_mem_nil, false_implies, implies_true, and_true] at hfl
  obtain ⟨f1, f2, f3, f4, f5, f6, f7, f8, f9⟩ := hfl
  refine ⟨⟨(p1.x * p2.y - p1.y * p2.x) / D, (p1.y - p2.y) / D, (p2.x - p1.x) / D⟩,
    ⟨(p2.x * p0.y - p2.y * p0.x) / D, (p2.y - p0.y) / D, (p0.x - p2.x) / D⟩,
    ⟨(p0.x * p1.y - p0.y * p1.x) / D, (p0.y - p1.y) / D, (p1.x - p0.x) / D⟩, ?_, ?_⟩
  · unfold triForm M33.inverse
    dsimp only
    rw [hdet, if_pos (not_le.2 h)]
    simp only [M33.mulVec, M33.cMulVec, mul_one, mul_zero, add_zero, zero_add, one_mul]
    rw [← f1, ← f2, ← f3, ← f4, ← f5, ← f6, ← f7, ← f8, ← f9]
    congr 3 <;> (try congr 1) <;> ring_nf
  · simp only [IsNodalBasis3, evalTri]
    refine ⟨?_, ?_, ?_, ?_, ?_, ?_, ?_, ?_, ?_, fun p => ?_⟩ <;> field_simp <;> rw [hDe] <;> ring

/-- Not vacuous. -/
example : ∃ a b c, triForm (⟨0, 0⟩ : V2 ℚ) ⟨2, 0⟩ ⟨1, 3⟩ = .ok (a, b, c) ∧ evalTri b ⟨2, 0⟩ = 1 ∧ evalTri b ⟨1, 3⟩ = 0 :=
  ⟨⟨1, -1 / 2, -1 / 6⟩, ⟨0, 1 / 2, -1 / 6⟩, ⟨0, 0, 1 / 3⟩, by decide +kernel, by decide +kernel, by decide +kernel⟩

/-- The centre has the three barycentric coordinates equal (exact form functions): it is the mean of the nodes. -/
theorem C59_triangle_center (p0 p1 p2 : V2 K) (n0 n1 n2 : V3 K)
    (h : IsNodalBasis3 p0 p1 p2 (evalTri n0) (evalTri n1) (evalTri n2)) :
    evalTri n0 (triCenter p0 p1 p2) = 1 / 3 ∧ evalTri n1 (triCenter p0 p1 p2) = 1 / 3 ∧ evalTri n2 (triCenter p0 p1 p2) = 1 / 3 := by
  obtain ⟨a1, a2, a3, a4, a5, a6, a7, a8, a9, -⟩ := h
  simp only [evalTri, triCenter] at *
  refine ⟨by linear_combination (a1 + a2 + a3) / 3, by linear_combination (a4 + a5 + a6) / 3, by linear_combination (a7 + a8 + a9) / 3⟩

/-- **C59.** Tetrahedra: the form functions, as returned (they are not divided by the volume), take at their own node the value six times
the signed volume, zero at the other nodes, and sum to six times the signed volume everywhere. -/
theorem C59_tetrahedron (p0 p1 p2 p3 : V3 K) (i j : Fin 4) :
    let pts : Fin 4 → V3 K := ![p0, p1, p2, p3]
    let f := tetForm p0 p1 p2 p3
    let fs : Fin 4 → K × K × K × K := ![f.1, f.2.1, f.2.2.1, f.2.2.2]
    let v6 := V3.dot (p1 - p0) (V3.cross (p2 - p0) (p3 - p0))
    evalTet (fs i) (pts j) = (if i = j then v6 else 0) ∧
      (∀ p, evalTet (fs 0) p + evalTet (fs 1) p + evalTet (fs 2) p + evalTet (fs 3) p = v6) ∧
      tetVolume p0 p1 p2 p3 = |v6| / 6 := by
  intro pts f fs v6
  have hv : v6 = det3 (p1 - p0) (p2 - p0) (p3 - p0) := by
    simp only [v6, V3.dot, V3.cross, det3]; ring
  refine ⟨?_, ?_, ?_⟩
  · simp only [fs, f, pts, v6, tetForm, tetFormRow, evalTet]
    fin_cases i <;> fin_cases j <;>
      simp [det3, V3.dot, V3.cross, V3.sub_x, V3.sub_y, V3.sub_z] <;> ring
  · intro p
    simp only [fs, f, v6, tetForm, tetFormRow, evalTet]
    simp [det3, V3.dot, V3.cross, V3.sub_x, V3.sub_y, V3.sub_z]; ring
  · unfold tetVolume
    rw [hv, abs_mul, abs_of_pos (by norm_num : (0 : K) < 1 / 6)]
    ring

/-- Not vacuous: a tetrahedron of volume one sixth. -/
example : tetVolume (⟨0, 0, 0⟩ : V3 ℚ) ⟨1, 0, 0⟩ ⟨0, 1, 0⟩ ⟨0, 0, 1⟩ = 1 / 6 := by decide +kernel

/-- Every face of a tetrahedron has three of its points, and every three distinct points of it are those of one of the faces. -/
theorem C59_faces {P : Type*} (p : Fin 4 → P) (i j k : Fin 4) (h : i < j ∧ j < k) :
    (p i, p j, p k) ∈ tetFaces (p 0) (p 1) (p 2) (p 3) ∧ (tetFaces (p 0) (p 1) (p 2) (p 3)).length = 4 := by
  refine ⟨?_, rfl⟩
  unfold tetFaces
  obtain ⟨h1, h2⟩ := h
  fin_cases i <;> fin_cases j <;> fin_cases k <;> simp_all

/-- Specification: `n` is the unit normal of the edge `a b` pointing to the side of `c`. -/
def IsInteriorNormal (a b c n : V2 ℝ) : Prop :=
  V2.norm n = 1 ∧ V2.dot n (b - a) = 0 ∧ 0 < V2.dot n (c - a)

lemma interiorNormal_spec (a b c : V2 ℝ) (h : V2.cross (b - a) (c - a) ≠ 0) : ∃ n, interiorNormal a b c = some n ∧ IsInteriorNormal a b c n := by
  have hne : ¬(V2.norm ⟨-(b.y - a.y), b.x - a.x⟩ = 0) := by
    intro e
    apply h
    unfold V2.norm at e
    rw [Real.sqrt_eq_zero (by nlinarith [sq_nonneg (b.y - a.y), sq_nonneg (b.x - a.x)])] at e
    simp only at e
    have e1 : b.y - a.y = 0 := by nlinarith [sq_nonneg (b.y - a.y), sq_nonneg (b.x - a.x)]
    have e2 : b.x - a.x = 0 := by nlinarith [sq_nonneg (b.y - a.y), sq_nonneg (b.x - a.x)]
    simp only [V2.cross, V2.sub_x, V2.sub_y, e1, e2]; ring
  set N := V2.norm ⟨-(b.y - a.y), b.x - a.x⟩ with hN
  have hN0 : 0 < N := lt_of_le_of_ne (Real.sqrt_nonneg _) (Ne.symm hne)
  have hsq : N ^ 2 = (b.y - a.y) ^ 2 + (b.x - a.x) ^ 2 := by
    rw [hN]; unfold V2.norm; rw [Real.sq_sqrt (by nlinarith [sq_nonneg (b.y - a.y), sq_nonneg (b.x - a.x)])]; ring
  unfold interiorNormal V2.unitVector
  dsimp only
  rw [← hN, if_neg hne]
  refine ⟨_, rfl, ?_⟩
  have hunit : V2.norm ⟨-(b.y - a.y) / N, (b.x - a.x) / N⟩ = 1 := by
    unfold V2.norm
    rw [Real.sqrt_eq_one]
    field_simp
    rw [hsq]
  have hdot : V2.dot ⟨-(b.y - a.y) / N, (b.x - a.x) / N⟩ ⟨c.x - b.x, c.y - b.y⟩ = V2.cross (b - a) (c - a) / N := by
    simp only [V2.dot, V2.cross, V2.sub_x, V2.sub_y]; field_simp; ring
  have hdot' : V2.dot ⟨-(b.y - a.y) / N, (b.x - a.x) / N⟩ (c - a) = V2.cross (b - a) (c - a) / N := by
    simp only [V2.dot, V2.cross, V2.sub_x, V2.sub_y]; field_simp; ring
  dsimp only
  rw [hdot]
  split_ifs with hlt
  · refine ⟨?_, ?_, ?_⟩
    · rw [← hunit]; unfold V2.norm; congr 1; simp only [V2.neg_x, V2.neg_y]; ring
    · simp only [V2.dot, V2.sub_x, V2.sub_y, V2.neg_x, V2.neg_y]; field_simp; ring
    · have : V2.dot (-(⟨-(b.y - a.y) / N, (b.x - a.x) / N⟩ : V2 ℝ)) (c - a) = -V2.dot ⟨-(b.y - a.y) / N, (b.x - a.x) / N⟩ (c - a) := by
        simp only [V2.dot, V2.neg_x, V2.neg_y]; ring
      rw [this, hdot']; linarith
  · refine ⟨hunit, ?_, ?_⟩
    · simp only [V2.dot, V2.sub_x, V2.sub_y]; field_simp; ring
    · rw [hdot']
      rcases (not_lt.1 hlt).lt_or_eq with h' | h'
      · exact h'
      · exact absurd (by rw [eq_comm, div_eq_zero_iff] at h'; exact h'.resolve_right hne) h

/-- **C59.** The normals attached to the three edges of a triangle that is not flat are unit, orthogonal to the edge and point to the
inside (to the side of the opposite vertex). -/
theorem C59_interior_normals (p0 p1 p2 : V2 ℝ) (h : V2.cross (p1 - p0) (p2 - p0) ≠ 0) :
    ∃ n1 n2 n3, linearElements p0 p1 p2 = some (n1, n2, n3) ∧
      IsInteriorNormal p0 p1 p2 n1 ∧ IsInteriorNormal p1 p2 p0 n2 ∧ IsInteriorNormal p2 p0 p1 n3 := by
  have e1 : V2.cross (p2 - p1) (p0 - p1) = V2.cross (p1 - p0) (p2 - p0) := by simp only [V2.cross, V2.sub_x, V2.sub_y]; ring
  have e2 : V2.cross (p0 - p2) (p1 - p2) = V2.cross (p1 - p0) (p2 - p0) := by simp only [V2.cross, V2.sub_x, V2.sub_y]; ring
  obtain ⟨n1, h1, s1⟩ := interiorNormal_spec p0 p1 p2 h
  obtain ⟨n2, h2, s2⟩ := interiorNormal_spec p1 p2 p0 (by rwa [e1])
  obtain ⟨n3, h3, s3⟩ := interiorNormal_spec p2 p0 p1 (by rwa [e2])
  exact ⟨n1, n2, n3, by unfold linearElements; rw [h1, h2, h3]; rfl, s1, s2, s3⟩

/-- Not vacuous. -/
example : V2.cross ((⟨2, 0⟩ : V2 ℝ) - ⟨0, 0⟩) (⟨1, 3⟩ - ⟨0, 0⟩) ≠ 0 := by norm_num [V2.cross, V2.sub_x, V2.sub_y]

end Volmdlr.Fem
