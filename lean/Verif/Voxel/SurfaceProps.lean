import Verif.Voxel.SurfaceModel
import Mathlib.Algebra.Ring.Parity
import Mathlib.Data.List.Count
import Mathlib.Data.List.OfFn
import Mathlib.Tactic.FinCases
import Mathlib.Tactic.FieldSimp
import Mathlib.Tactic.LinearCombination
import Mathlib.Tactic.Push
import Mathlib.Tactic.Ring
import Mathlib.Algebra.Order.Ring.Rat

/-!
# C43: the triangles of a voxelization are the boundary of the solid, whatever the iteration order
-/

namespace Volmdlr.Voxel

variable {K : Type} [Field K] [LinearOrder K] [IsStrictOrderedRing K]

/-! ## Specification -/

/-- The points of a triangle. -/
def TriContains (t : Tri3 K) (p : Fin 3 → K) : Prop :=
  ∃ a b c : K, 0 ≤ a ∧ 0 ≤ b ∧ 0 ≤ c ∧ a + b + c = 1 ∧ ∀ i, p i = a * t.1 i + b * t.2.1 i + c * t.2.2 i

/-- The points of the voxels of size `s` of the given centres. -/
def Solid (centres : Set (Fin 3 → K)) (s : K) : Set (Fin 3 → K) :=
  {p | ∃ v ∈ centres, ∀ i, v i - s / 2 ≤ p i ∧ p i ≤ v i + s / 2}

/-- `p` is on the boundary of the (closed) set `A`: it is in `A` and there are points outside of `A` as near as wanted. -/
def OnBoundary (A : Set (Fin 3 → K)) (p : Fin 3 → K) : Prop :=
  p ∈ A ∧ ∀ ε > 0, ∃ q, q ∉ A ∧ ∀ i, |q i - p i| < ε

/-- The centres lie on a grid of step `s`. -/
def OnCommonGrid (centres : Set (Fin 3 → K)) (s : K) : Prop :=
  ∃ b : Fin 3 → K, ∀ v ∈ centres, ∃ k : Fin 3 → ℤ, v = fun i => b i + k i * s

/-! ## Toggling -/

section toggle
variable {α : Type} [DecidableEq α]

lemma mem_toggle (S : Finset α) (t x : α) : x ∈ toggle S t ↔ ¬ (x ∈ S ↔ x = t) := by
  unfold toggle
  by_cases h : t ∈ S
  · rw [if_neg (by simpa using h), Finset.mem_erase]
    by_cases hx : x = t
    · subst hx; simp [h]
    · simp [hx]
  · rw [if_pos h, Finset.mem_insert]
    by_cases hx : x = t
    · subst hx; simp [h]
    · simp [hx]

lemma mem_foldl_toggle [BEq α] [LawfulBEq α] (l : List α) (S : Finset α) (x : α) :
    x ∈ l.foldl toggle S ↔ ¬ (x ∈ S ↔ Odd (l.count x)) := by
  induction l generalizing S with
  | nil => simp
  | cons a l ih =>
    rw [List.foldl_cons, ih, mem_toggle]
    by_cases hx : x = a
    · subst hx
      rw [List.count_cons_self, Nat.odd_add_one]
      tauto
    · rw [List.count_cons_of_ne (Ne.symm hx)]
      tauto

end toggle

omit [IsStrictOrderedRing K] in
lemma toTriangles_eq (l : List (Fin 3 → K)) (s : K) :
    toTriangles l s = (l.flatMap (voxelTriangularFaces · s)).foldl toggle ∅ := by
  unfold toTriangles
  rw [List.foldl_flatMap]

/-- **C43.** A triangle is in the result iff it is a triangle of an odd number of voxels. -/
theorem C43_parity (l : List (Fin 3 → K)) (s : K) (t : Tri3 K) :
    t ∈ toTriangles l s ↔ Odd ((l.flatMap (voxelTriangularFaces · s)).count t) := by
  rw [toTriangles_eq, mem_foldl_toggle]; simp

/-- **C43.** The result does not depend on the order in which the set of voxel centres is iterated. -/
theorem C43_iteration_order (l l' : List (Fin 3 → K)) (s : K) (h : l.Perm l') : toTriangles l s = toTriangles l' s := by
  ext t
  rw [C43_parity, C43_parity, (h.flatMap_right _).count_eq]

example : [![(0 : ℚ), 0, 0], ![1, 0, 0]].Perm [![1, 0, 0], ![0, 0, 0]] := by
  exact List.Perm.swap _ _ _

/-! ## The twelve triangles, by signs -/

/-- Signs of the corners of the twelve triangles. -/
def faceSign : Fin 12 → Fin 3 → Fin 3 → ℤ := ![
  ![![-1, -1, 1], ![-1, 1, 1], ![1, 1, 1]],
  ![![-1, -1, 1], ![1, 1, 1], ![1, -1, 1]],
  ![![-1, -1, -1], ![-1, 1, -1], ![1, 1, -1]],
  ![![-1, -1, -1], ![1, 1, -1], ![1, -1, -1]],
  ![![-1, -1, -1], ![-1, 1, -1], ![-1, 1, 1]],
  ![![-1, -1, -1], ![-1, 1, 1], ![-1, -1, 1]],
  ![![1, -1, -1], ![1, 1, -1], ![1, 1, 1]],
  ![![1, -1, -1], ![1, 1, 1], ![1, -1, 1]],
  ![![-1, 1, -1], ![1, 1, -1], ![1, 1, 1]],
  ![![-1, 1, -1], ![1, 1, 1], ![-1, 1, 1]],
  ![![-1, -1, -1], ![1, -1, -1], ![1, -1, 1]],
  ![![-1, -1, -1], ![1, -1, 1], ![-1, -1, 1]]]

/-- The outer normals of the faces of the twelve triangles. -/
def faceNormal : Fin 12 → Fin 3 → ℤ := ![
  ![0, 0, 1], ![0, 0, 1], ![0, 0, -1], ![0, 0, -1], ![-1, 0, 0], ![-1, 0, 0], ![1, 0, 0], ![1, 0, 0],
  ![0, 1, 0], ![0, 1, 0], ![0, -1, 0], ![0, -1, 0]]

/-- The triangle of index `k` of a voxel. -/
def faceTri (v : Fin 3 → K) (s : K) (k : Fin 12) : Tri3 K :=
  (fun i => v i + faceSign k 0 i * (s / 2), fun i => v i + faceSign k 1 i * (s / 2), fun i => v i + faceSign k 2 i * (s / 2))

omit [LinearOrder K] [IsStrictOrderedRing K] in
lemma sign_vec (v : Fin 3 → K) (h : K) (x y z : K) (a b c : ℤ) (hx : x = v 0 + a * h) (hy : y = v 1 + b * h) (hz : z = v 2 + c * h) :
    ![x, y, z] = fun i => v i + ((![a, b, c] : Fin 3 → ℤ) i : K) * h := by
  rw [hx, hy, hz]
  funext i
  fin_cases i <;> rfl

omit [LinearOrder K] [IsStrictOrderedRing K] in
lemma faces_eq (v : Fin 3 → K) (s : K) : voxelTriangularFaces v s = List.ofFn (faceTri v s) := by
  have emmm : ![v 0 - s / 2, v 1 - s / 2, v 2 - s / 2] =
      fun i => v i + ((![-1, -1, -1] : Fin 3 → ℤ) i : K) * (s / 2) :=
    sign_vec v (s / 2) _ _ _ _ _ _ (by push_cast; ring) (by push_cast; ring) (by push_cast; ring)
  have emmp : ![v 0 - s / 2, v 1 - s / 2, v 2 + s / 2] =
      fun i => v i + ((![-1, -1, 1] : Fin 3 → ℤ) i : K) * (s / 2) :=
    sign_vec v (s / 2) _ _ _ _ _ _ (by push_cast; ring) (by push_cast; ring) (by push_cast; ring)
  have empm : ![v 0 - s / 2, v 1 + s / 2, v 2 - s / 2] =
      fun i => v i + ((![-1, 1, -1] : Fin 3 → ℤ) i : K) * (s / 2) :=
    sign_vec v (s / 2) _ _ _ _ _ _ (by push_cast; ring) (by push_cast; ring) (by push_cast; ring)
  have empp : ![v 0 - s / 2, v 1 + s / 2, v 2 + s / 2] =
      fun i => v i + ((![-1, 1, 1] : Fin 3 → ℤ) i : K) * (s / 2) :=
    sign_vec v (s / 2) _ _ _ _ _ _ (by push_cast; ring) (by push_cast; ring) (by push_cast; ring)
  have epmm : ![v 0 + s / 2, v 1 - s / 2, v 2 - s / 2] =
      fun i => v i + ((![1, -1, -1] : Fin 3 → ℤ) i : K) * (s / 2) :=
    sign_vec v (s / 2) _ _ _ _ _ _ (by push_cast; ring) (by push_cast; ring) (by push_cast; ring)
  have epmp : ![v 0 + s / 2, v 1 - s / 2, v 2 + s / 2] =
      fun i => v i + ((![1, -1, 1] : Fin 3 → ℤ) i : K) * (s / 2) :=
    sign_vec v (s / 2) _ _ _ _ _ _ (by push_cast; ring) (by push_cast; ring) (by push_cast; ring)
  have eppm : ![v 0 + s / 2, v 1 + s / 2, v 2 - s / 2] =
      fun i => v i + ((![1, 1, -1] : Fin 3 → ℤ) i : K) * (s / 2) :=
    sign_vec v (s / 2) _ _ _ _ _ _ (by push_cast; ring) (by push_cast; ring) (by push_cast; ring)
  have eppp : ![v 0 + s / 2, v 1 + s / 2, v 2 + s / 2] =
      fun i => v i + ((![1, 1, 1] : Fin 3 → ℤ) i : K) * (s / 2) :=
    sign_vec v (s / 2) _ _ _ _ _ _ (by push_cast; ring) (by push_cast; ring) (by push_cast; ring)
  simp only [voxelTriangularFaces, emmm, emmp, empm, empp, epmm, epmp, eppm, eppp]
  rfl

lemma faceSign_cases : ∀ k j : Fin 12, (∀ a i, faceSign k a i - faceSign j a i = faceSign k 0 i - faceSign j 0 i) →
    j = k ∨ ∀ i, faceSign k 0 i - faceSign j 0 i = 2 * faceNormal k i := by
  decide

lemma faceSign_opp : ∀ k : Fin 12, ∃ j, ∀ a i, faceSign k a i - faceSign j a i = 2 * faceNormal k i := by
  decide

lemma faceTri_eq_iff {v w : Fin 3 → K} {s : K} (hs : 0 < s) {k j : Fin 12} (h : faceTri w s j = faceTri v s k) :
    ∀ a i, w i - v i = ((faceSign k a i - faceSign j a i : ℤ) : K) * (s / 2) := by
  have h0 := congrArg (fun t => t.1) h
  have h1 := congrArg (fun t => t.2.1) h
  have h2 := congrArg (fun t => t.2.2) h
  intro a i
  have g0 := congrFun h0 i
  have g1 := congrFun h1 i
  have g2 := congrFun h2 i
  simp only [faceTri] at g0 g1 g2
  push_cast
  have ha : a = 0 ∨ a = 1 ∨ a = 2 := by clear * -; revert a; decide
  rcases ha with rfl | rfl | rfl
  · linear_combination g0
  · linear_combination g1
  · linear_combination g2

lemma mem_faces {v w : Fin 3 → K} {s : K} (hs : 0 < s) (k : Fin 12) :
    faceTri v s k ∈ voxelTriangularFaces w s ↔ w = v ∨ w = fun i => v i + faceNormal k i * s := by
  rw [faces_eq, List.mem_ofFn]
  constructor
  · rintro ⟨j, hj⟩
    have h := faceTri_eq_iff hs hj
    have hc : ∀ a i, faceSign k a i - faceSign j a i = faceSign k 0 i - faceSign j 0 i := by
      intro a i
      have e := (h a i).symm.trans (h 0 i)
      have hs2 : s / 2 ≠ 0 := by positivity
      exact_mod_cast mul_right_cancel₀ hs2 e
    rcases faceSign_cases k j hc with rfl | hn
    · left
      funext i
      have := h 0 i
      simp at this
      linear_combination this
    · right
      funext i
      have := h 0 i
      rw [hn] at this
      push_cast at this
      linear_combination this
  · rintro (rfl | rfl)
    · exact ⟨k, rfl⟩
    · obtain ⟨j, hj⟩ := faceSign_opp k
      refine ⟨j, ?_⟩
      have e : ∀ a i, v i + faceNormal k i * s + faceSign j a i * (s / 2) = v i + (faceSign k a i : K) * (s / 2) := by
        intro a i
        have := congrArg (fun z : ℤ => (z : K)) (hj a i)
        push_cast at this
        linear_combination (-s / 2) * this
      simp only [faceTri, e]

lemma faces_nodup (v : Fin 3 → K) {s : K} (hs : 0 < s) : (voxelTriangularFaces v s).Nodup := by
  rw [faces_eq, List.nodup_ofFn]
  intro j k hjk
  have h := faceTri_eq_iff hs hjk
  have hs2 : s / 2 ≠ 0 := by positivity
  have hz : ∀ a i, faceSign k a i - faceSign j a i = 0 := by
    intro a i
    have := h a i
    rw [sub_self] at this
    have := (mul_eq_zero.1 this.symm).resolve_right hs2
    exact_mod_cast this
  revert hz
  clear h hjk
  revert j k
  decide

lemma normal_ne (k : Fin 12) (v : Fin 3 → K) {s : K} (hs : 0 < s) : (fun i => v i + faceNormal k i * s) ≠ v := by
  intro h
  have : ∀ i, faceNormal k i = 0 := by
    intro i
    have := congrFun h i
    have : (faceNormal k i : K) * s = 0 := by linear_combination this
    have := (mul_eq_zero.1 this).resolve_right hs.ne'
    exact_mod_cast this
  clear h
  revert k
  decide

lemma count_faces (l : List (Fin 3 → K)) (hl : l.Nodup) {s : K} (hs : 0 < s) (v : Fin 3 → K) (k : Fin 12) :
    (l.flatMap (voxelTriangularFaces · s)).count (faceTri v s k) =
      (if v ∈ l then 1 else 0) + (if (fun i => v i + faceNormal k i * s) ∈ l then 1 else 0) := by
  induction l with
  | nil => simp
  | cons w l ih =>
    rw [List.flatMap_cons, List.count_append, ih hl.of_cons]
    have hw : w ∉ l := (List.nodup_cons.1 hl).1
    have hne := normal_ne k v hs
    have hc : (voxelTriangularFaces w s).count (faceTri v s k) =
        if w = v ∨ w = (fun i => v i + faceNormal k i * s) then 1 else 0 := by
      rw [(faces_nodup w hs).count]
      exact if_congr (mem_faces hs k) rfl rfl
    rw [hc]
    generalize (fun i => v i + (faceNormal k i : K) * s) = n at *
    by_cases h1 : w = v
    · subst h1
      have hn : n ∈ w :: l ↔ n ∈ l := by simp [hne]
      simp only [hw, hn]
      simp
    · by_cases h2 : w = n
      · subst h2
        have hn : v ∈ w :: l ↔ v ∈ l := by simp [Ne.symm h1]
        simp only [hw, hn]
        simp; omega
      · have hn : v ∈ w :: l ↔ v ∈ l := by simp [Ne.symm h1]
        have hn' : n ∈ w :: l ↔ n ∈ l := by simp [Ne.symm h2]
        simp only [hn, hn', h1, h2]
        simp

/-- **C43.** A triangle of a voxel of the voxelization is in the result iff the voxel on the other side of its face is not in
the voxelization; and the result has no other triangle. -/
theorem C43_faces_between_inside_and_outside (l : List (Fin 3 → K)) (hl : l.Nodup) {s : K} (hs : 0 < s) :
    (∀ v ∈ l, ∀ k, faceTri v s k ∈ toTriangles l s ↔ (fun i => v i + faceNormal k i * s) ∉ l) ∧
    ∀ t ∈ toTriangles l s, ∃ v ∈ l, ∃ k, t = faceTri v s k := by
  constructor
  · intro v hv k
    rw [C43_parity, count_faces l hl hs, if_pos hv]
    by_cases h : (fun i => v i + faceNormal k i * s) ∈ l
    · rw [if_pos h]
      exact iff_of_false (by decide) (not_not.2 h)
    · rw [if_neg h]
      exact iff_of_true (by decide) h
  · intro t ht
    rw [C43_parity] at ht
    have : 0 < (l.flatMap (voxelTriangularFaces · s)).count t := ht.pos
    rw [List.count_pos_iff, List.mem_flatMap] at this
    obtain ⟨v, hv, hm⟩ := this
    rw [faces_eq, List.mem_ofFn] at hm
    obtain ⟨k, rfl⟩ := hm
    exact ⟨v, hv, k, rfl⟩

/-! ## The points covered by the triangles -/

/-- The square face of a voxel, of outer normal `n`. -/
def InFace (v : Fin 3 → K) (s : K) (n : Fin 3 → ℤ) (p : Fin 3 → K) : Prop :=
  ∀ i, v i - s / 2 ≤ p i ∧ p i ≤ v i + s / 2 ∧ (n i ≠ 0 → p i = v i + n i * (s / 2))

lemma faceSign_bound : ∀ k a i, -1 ≤ faceSign k a i ∧ faceSign k a i ≤ 1 ∧ (faceNormal k i ≠ 0 → faceSign k a i = faceNormal k i) := by
  decide

lemma inFace_of_tri {v p : Fin 3 → K} {s : K} (hs : 0 < s) {k : Fin 12} (h : TriContains (faceTri v s k) p) :
    InFace v s (faceNormal k) p := by
  obtain ⟨a, b, c, ha, hb, hc, hsum, hp⟩ := h
  intro i
  have e : p i = v i + (a * faceSign k 0 i + b * faceSign k 1 i + c * faceSign k 2 i) * (s / 2) := by
    rw [hp i]
    simp only [faceTri]
    linear_combination (v i) * hsum
  obtain ⟨l0, u0, n0⟩ := faceSign_bound k 0 i
  obtain ⟨l1, u1, n1⟩ := faceSign_bound k 1 i
  obtain ⟨l2, u2, n2⟩ := faceSign_bound k 2 i
  have l0' : (-1 : K) ≤ faceSign k 0 i := by exact_mod_cast l0
  have l1' : (-1 : K) ≤ faceSign k 1 i := by exact_mod_cast l1
  have l2' : (-1 : K) ≤ faceSign k 2 i := by exact_mod_cast l2
  have u0' : (faceSign k 0 i : K) ≤ 1 := by exact_mod_cast u0
  have u1' : (faceSign k 1 i : K) ≤ 1 := by exact_mod_cast u1
  have u2' : (faceSign k 2 i : K) ≤ 1 := by exact_mod_cast u2
  have h2 : 0 < s / 2 := by positivity
  refine ⟨?_, ?_, ?_⟩
  · rw [e]
    have : -1 ≤ a * (faceSign k 0 i : K) + b * faceSign k 1 i + c * faceSign k 2 i := by nlinarith
    nlinarith
  · rw [e]
    have : a * (faceSign k 0 i : K) + b * faceSign k 1 i + c * faceSign k 2 i ≤ 1 := by nlinarith
    nlinarith
  · intro hn
    rw [e, n0 hn, n1 hn, n2 hn]
    linear_combination ((faceNormal k i : K) * (s / 2)) * hsum

set_option maxHeartbeats 2000000 in
/-- The two triangles of each face: coordinates `(u, w)` in the face, second one first for triangles with `u ≤ w`. -/
lemma tri_of_inFace {v p : Fin 3 → K} {s : K} (hs : 0 < s) {k : Fin 12} (h : InFace v s (faceNormal k) p) :
    ∃ j, faceNormal j = faceNormal k ∧ TriContains (faceTri v s j) p := by
  have h0 := h 0
  have h1 := h 1
  have h2 := h 2
  have hs0 := hs.ne'
  have key : ∀ (j : Fin 12) (a0 a1 a2 b0 b1 b2 c0 c1 c2 : ℤ) (A B C : K), faceSign j = ![![a0, a1, a2], ![b0, b1, b2], ![c0, c1, c2]] →
      0 ≤ A → 0 ≤ B → 0 ≤ C → A + B + C = s →
      2 * (p 0 - v 0) = A * a0 + B * b0 + C * c0 → 2 * (p 1 - v 1) = A * a1 + B * b1 + C * c1 →
      2 * (p 2 - v 2) = A * a2 + B * b2 + C * c2 → TriContains (faceTri v s j) p := by
    intro j a0 a1 a2 b0 b1 b2 c0 c1 c2 A B C hj hA hB hC hsum e0 e1 e2
    clear * - hj hA hB hC hsum e0 e1 e2 hs0 hs
    refine ⟨A / s, B / s, C / s, by positivity, by positivity, by positivity, by field_simp; exact hsum, fun i => ?_⟩
    simp only [faceTri, hj]
    have hi : i = 0 ∨ i = 1 ∨ i = 2 := by clear * -; revert i; decide
    have g : ∀ (q w x y z : K), 2 * (q - w) = A * x + B * y + C * z →
        q = A / s * (w + x * (s / 2)) + B / s * (w + y * (s / 2)) + C / s * (w + z * (s / 2)) := by
      intro q w x y z h
      field_simp
      linear_combination s * h - 2 * w * hsum
    rcases hi with rfl | rfl | rfl
    · exact g _ _ _ _ _ e0
    · exact g _ _ _ _ _ e1
    · exact g _ _ _ _ _ e2
  have aux : ∀ j1 j2 : Fin 12, ∀ u w : Fin 3, faceNormal j1 = faceNormal k → faceNormal j2 = faceNormal k →
      (p u - v u ≤ p w - v w → TriContains (faceTri v s j1) p) → (p w - v w ≤ p u - v u → TriContains (faceTri v s j2) p) →
      ∃ j, faceNormal j = faceNormal k ∧ TriContains (faceTri v s j) p := by
    intro j1 j2 u w e1 e2 g1 g2
    rcases le_total (p u - v u) (p w - v w) with q | q
    · exact ⟨j1, e1, g1 q⟩
    · exact ⟨j2, e2, g2 q⟩
  have t0 : p 2 = v 2 + s / 2 → p 0 - v 0 ≤ p 1 - v 1 → TriContains (faceTri v s 0) p := by
    intro e q
    exact key 0 (-1) (-1) (1) (-1) (1) (1) (1) (1) (1)
      (s / 2 - (p 1 - v 1)) ((p 1 - v 1) - (p 0 - v 0)) (s / 2 + (p 0 - v 0)) rfl (by linarith) (by linarith) (by linarith) (by ring)
      (by push_cast; linarith) (by push_cast; linarith) (by push_cast; linarith)
  have t1 : p 2 = v 2 + s / 2 → p 1 - v 1 ≤ p 0 - v 0 → TriContains (faceTri v s 1) p := by
    intro e q
    exact key 1 (-1) (-1) (1) (1) (1) (1) (1) (-1) (1)
      (s / 2 - (p 0 - v 0)) (s / 2 + (p 1 - v 1)) ((p 0 - v 0) - (p 1 - v 1)) rfl (by linarith) (by linarith) (by linarith) (by ring)
      (by push_cast; linarith) (by push_cast; linarith) (by push_cast; linarith)
  have t2 : p 2 = v 2 - s / 2 → p 0 - v 0 ≤ p 1 - v 1 → TriContains (faceTri v s 2) p := by
    intro e q
    exact key 2 (-1) (-1) (-1) (-1) (1) (-1) (1) (1) (-1)
      (s / 2 - (p 1 - v 1)) ((p 1 - v 1) - (p 0 - v 0)) (s / 2 + (p 0 - v 0)) rfl (by linarith) (by linarith) (by linarith) (by ring)
      (by push_cast; linarith) (by push_cast; linarith) (by push_cast; linarith)
  have t3 : p 2 = v 2 - s / 2 → p 1 - v 1 ≤ p 0 - v 0 → TriContains (faceTri v s 3) p := by
    intro e q
    exact key 3 (-1) (-1) (-1) (1) (1) (-1) (1) (-1) (-1)
      (s / 2 - (p 0 - v 0)) (s / 2 + (p 1 - v 1)) ((p 0 - v 0) - (p 1 - v 1)) rfl (by linarith) (by linarith) (by linarith) (by ring)
      (by push_cast; linarith) (by push_cast; linarith) (by push_cast; linarith)
  have t4 : p 0 = v 0 - s / 2 → p 2 - v 2 ≤ p 1 - v 1 → TriContains (faceTri v s 4) p := by
    intro e q
    exact key 4 (-1) (-1) (-1) (-1) (1) (-1) (-1) (1) (1)
      (s / 2 - (p 1 - v 1)) ((p 1 - v 1) - (p 2 - v 2)) (s / 2 + (p 2 - v 2)) rfl (by linarith) (by linarith) (by linarith) (by ring)
      (by push_cast; linarith) (by push_cast; linarith) (by push_cast; linarith)
  have t5 : p 0 = v 0 - s / 2 → p 1 - v 1 ≤ p 2 - v 2 → TriContains (faceTri v s 5) p := by
    intro e q
    exact key 5 (-1) (-1) (-1) (-1) (1) (1) (-1) (-1) (1)
      (s / 2 - (p 2 - v 2)) (s / 2 + (p 1 - v 1)) ((p 2 - v 2) - (p 1 - v 1)) rfl (by linarith) (by linarith) (by linarith) (by ring)
      (by push_cast; linarith) (by push_cast; linarith) (by push_cast; linarith)
  have t6 : p 0 = v 0 + s / 2 → p 2 - v 2 ≤ p 1 - v 1 → TriContains (faceTri v s 6) p := by
    intro e q
    exact key 6 (1) (-1) (-1) (1) (1) (-1) (1) (1) (1)
      (s / 2 - (p 1 - v 1)) ((p 1 - v 1) - (p 2 - v 2)) (s / 2 + (p 2 - v 2)) rfl (by linarith) (by linarith) (by linarith) (by ring)
      (by push_cast; linarith) (by push_cast; linarith) (by push_cast; linarith)
  have t7 : p 0 = v 0 + s / 2 → p 1 - v 1 ≤ p 2 - v 2 → TriContains (faceTri v s 7) p := by
    intro e q
    exact key 7 (1) (-1) (-1) (1) (1) (1) (1) (-1) (1)
      (s / 2 - (p 2 - v 2)) (s / 2 + (p 1 - v 1)) ((p 2 - v 2) - (p 1 - v 1)) rfl (by linarith) (by linarith) (by linarith) (by ring)
      (by push_cast; linarith) (by push_cast; linarith) (by push_cast; linarith)
  have t8 : p 1 = v 1 + s / 2 → p 2 - v 2 ≤ p 0 - v 0 → TriContains (faceTri v s 8) p := by
    intro e q
    exact key 8 (-1) (1) (-1) (1) (1) (-1) (1) (1) (1)
      (s / 2 - (p 0 - v 0)) ((p 0 - v 0) - (p 2 - v 2)) (s / 2 + (p 2 - v 2)) rfl (by linarith) (by linarith) (by linarith) (by ring)
      (by push_cast; linarith) (by push_cast; linarith) (by push_cast; linarith)
  have t9 : p 1 = v 1 + s / 2 → p 0 - v 0 ≤ p 2 - v 2 → TriContains (faceTri v s 9) p := by
    intro e q
    exact key 9 (-1) (1) (-1) (1) (1) (1) (-1) (1) (1)
      (s / 2 - (p 2 - v 2)) (s / 2 + (p 0 - v 0)) ((p 2 - v 2) - (p 0 - v 0)) rfl (by linarith) (by linarith) (by linarith) (by ring)
      (by push_cast; linarith) (by push_cast; linarith) (by push_cast; linarith)
  have t10 : p 1 = v 1 - s / 2 → p 2 - v 2 ≤ p 0 - v 0 → TriContains (faceTri v s 10) p := by
    intro e q
    exact key 10 (-1) (-1) (-1) (1) (-1) (-1) (1) (-1) (1)
      (s / 2 - (p 0 - v 0)) ((p 0 - v 0) - (p 2 - v 2)) (s / 2 + (p 2 - v 2)) rfl (by linarith) (by linarith) (by linarith) (by ring)
      (by push_cast; linarith) (by push_cast; linarith) (by push_cast; linarith)
  have t11 : p 1 = v 1 - s / 2 → p 0 - v 0 ≤ p 2 - v 2 → TriContains (faceTri v s 11) p := by
    intro e q
    exact key 11 (-1) (-1) (-1) (1) (-1) (1) (-1) (-1) (1)
      (s / 2 - (p 2 - v 2)) (s / 2 + (p 0 - v 0)) ((p 2 - v 2) - (p 0 - v 0)) rfl (by linarith) (by linarith) (by linarith) (by ring)
      (by push_cast; linarith) (by push_cast; linarith) (by push_cast; linarith)
  have hn : faceNormal k = ![0, 0, 1] ∨ faceNormal k = ![0, 0, -1] ∨ faceNormal k = ![-1, 0, 0] ∨ faceNormal k = ![1, 0, 0] ∨
      faceNormal k = ![0, 1, 0] ∨ faceNormal k = ![0, -1, 0] := by
    clear * -
    revert k; decide
  rcases hn with e | e | e | e | e | e
  · have q := h2.2.2 (by rw [e]; decide)
    rw [e] at q
    have q' : p 2 = v 2 + s / 2 := by simpa using q
    exact aux 0 1 0 1 (by rw [e]; rfl) (by rw [e]; rfl) (t0 q') (t1 q')
  · have q := h2.2.2 (by rw [e]; decide)
    rw [e] at q
    have q' : p 2 = v 2 - s / 2 := by simp at q; linarith
    exact aux 2 3 0 1 (by rw [e]; rfl) (by rw [e]; rfl) (t2 q') (t3 q')
  · have q := h0.2.2 (by rw [e]; decide)
    rw [e] at q
    have q' : p 0 = v 0 - s / 2 := by simp at q; linarith
    exact aux 4 5 2 1 (by rw [e]; rfl) (by rw [e]; rfl) (t4 q') (t5 q')
  · have q := h0.2.2 (by rw [e]; decide)
    rw [e] at q
    have q' : p 0 = v 0 + s / 2 := by simp at q; linarith
    exact aux 6 7 2 1 (by rw [e]; rfl) (by rw [e]; rfl) (t6 q') (t7 q')
  · have q := h1.2.2 (by rw [e]; decide)
    rw [e] at q
    have q' : p 1 = v 1 + s / 2 := by simp at q; linarith
    exact aux 8 9 2 0 (by rw [e]; rfl) (by rw [e]; rfl) (t8 q') (t9 q')
  · have q := h1.2.2 (by rw [e]; decide)
    rw [e] at q
    have q' : p 1 = v 1 - s / 2 := by simp at q; linarith
    exact aux 10 11 2 0 (by rw [e]; rfl) (by rw [e]; rfl) (t10 q') (t11 q')

/-- The points covered are those of the faces between a voxel of the voxelization and one which is not. -/
lemma covered_iff (l : List (Fin 3 → K)) (hl : l.Nodup) {s : K} (hs : 0 < s) (p : Fin 3 → K) :
    (∃ t ∈ toTriangles l s, TriContains t p) ↔
      ∃ v ∈ l, ∃ k, (fun i => v i + faceNormal k i * s) ∉ l ∧ InFace v s (faceNormal k) p := by
  obtain ⟨hA, hB⟩ := C43_faces_between_inside_and_outside l hl hs
  constructor
  · rintro ⟨t, ht, hp⟩
    obtain ⟨v, hv, k, rfl⟩ := hB t ht
    exact ⟨v, hv, k, (hA v hv k).1 ht, inFace_of_tri hs hp⟩
  · rintro ⟨v, hv, k, hn, hp⟩
    obtain ⟨j, hj, ht⟩ := tri_of_inFace hs hp
    refine ⟨_, (hA v hv j).2 ?_, ht⟩
    rwa [hj]

/-! ## The boundary of the solid -/

lemma exists_normal (i : Fin 3) (e : ℤ) (he : e = 1 ∨ e = -1) : ∃ k, faceNormal k = fun j => if j = i then e else 0 := by
  rcases he with rfl | rfl <;> fin_cases i <;> decide

lemma normal_shape : ∀ k, ∃ i, (faceNormal k i = 1 ∨ faceNormal k i = -1) ∧ ∀ j, j ≠ i → faceNormal k j = 0 := by
  decide

/-- The cube of index `k` of the grid. -/
def InCube (b : Fin 3 → K) (s : K) (k : Fin 3 → ℤ) (p : Fin 3 → K) : Prop :=
  ∀ i, b i + k i * s - s / 2 ≤ p i ∧ p i ≤ b i + k i * s + s / 2

/-- **C43.** The triangles cover exactly the boundary of the solid made of the voxels, for every voxelization on a grid. -/
theorem C43_surface_is_boundary (l : List (Fin 3 → K)) (hl : l.Nodup) {s : K} (hs : 0 < s)
    (hgrid : OnCommonGrid {v | v ∈ l} s) (p : Fin 3 → K) :
    (∃ t ∈ toTriangles l s, TriContains t p) ↔ OnBoundary (Solid {v | v ∈ l} s) p := by
  rw [covered_iff l hl hs]
  obtain ⟨b, hb⟩ := hgrid
  constructor
  · rintro ⟨v, hv, k, hn, hp⟩
    refine ⟨⟨v, hv, fun i => ⟨(hp i).1, (hp i).2.1⟩⟩, fun ε hε => ?_⟩
    -- the centre of the neighbour
    set w : Fin 3 → K := fun i => v i + faceNormal k i * s with hw
    have hpw : ∀ i, |p i - w i| ≤ s / 2 := by
      intro i
      obtain ⟨h1, h2, h3⟩ := hp i
      rw [abs_le]
      by_cases hz : faceNormal k i = 0
      · simp only [hw, hz]; push_cast; constructor <;> linarith
      · have h3 := h3 hz
        have : faceNormal k i = 1 ∨ faceNormal k i = -1 := by
          obtain ⟨i0, h, h'⟩ := normal_shape k
          by_cases hi : i = i0
          · rwa [hi]
          · exact absurd (h' i hi) hz
        simp only [hw, h3]
        rcases this with e | e <;> rw [e] <;> push_cast <;> constructor <;> linarith
    -- a small step towards it
    obtain ⟨t, ht0, ht1, htε⟩ : ∃ t : K, 0 < t ∧ t ≤ 1 ∧ t * (s / 2) < ε := by
      refine ⟨min 1 (ε / s), lt_min one_pos (by positivity), min_le_left _ _, ?_⟩
      have : min 1 (ε / s) ≤ ε / s := min_le_right _ _
      have h2 : min 1 (ε / s) * (s / 2) ≤ ε / s * (s / 2) := mul_le_mul_of_nonneg_right this (by positivity)
      have h3 : ε / s * (s / 2) = ε / 2 := by field_simp
      linarith
    refine ⟨fun i => p i + t * (w i - p i), ?_, ?_⟩
    · rintro ⟨u, hu, hq⟩
      obtain ⟨kv, hkv⟩ := hb v hv
      obtain ⟨ku, hku⟩ := hb u hu
      apply hn
      have : w = u := by
        funext i
        have hwi : w i = b i + (kv i + faceNormal k i : ℤ) * s := by
          rw [hw, hkv]; push_cast; ring
        have hui : u i = b i + ku i * s := by rw [hku]
        have hq := hq i
        have ha := abs_le.1 (hpw i)
        have key : |((kv i + faceNormal k i - ku i : ℤ) : K)| < 1 := by
          have h1 : ((kv i + faceNormal k i - ku i : ℤ) : K) * s = w i - u i := by
            rw [hwi, hui]; push_cast; ring
          have h2 : |w i - u i| < s := by
            rw [abs_lt]
            constructor <;> nlinarith
          rw [← h1, abs_mul, abs_of_pos hs] at h2
          nlinarith
        have : kv i + faceNormal k i - ku i = 0 := by
          have : |kv i + faceNormal k i - ku i| < 1 := by exact_mod_cast key
          exact Int.abs_lt_one_iff.1 this
        rw [hwi, hui, show kv i + faceNormal k i = ku i by omega]
      rw [this]; exact hu
    · intro i
      have e : p i + t * (w i - p i) - p i = t * (w i - p i) := by ring
      dsimp only
      rw [e, abs_mul, abs_of_pos ht0, abs_sub_comm]
      exact lt_of_le_of_lt (mul_le_mul_of_nonneg_left (hpw i) ht0.le) htε
  · rintro ⟨⟨v, hv, hpv⟩, hε⟩
    by_contra hno
    obtain ⟨kv, hkv⟩ := hb v hv
    -- every cube of the grid containing `p` is in the voxelization
    have step : ∀ k : Fin 3 → ℤ, (fun i => b i + k i * s) ∈ l → InCube b s k p → ∀ i m, InCube b s (Function.update k i m) p →
        (fun j => b j + (Function.update k i m j : ℤ) * s) ∈ l := by
      intro k hk hp i m hm
      by_cases hmk : m = k i
      · subst hmk; rwa [Function.update_eq_self]
      · by_contra hout
        have h1 := hp i
        have h2 := hm i
        rw [Function.update_self] at h2
        have hd : |((m - k i : ℤ) : K)| < 2 := by
          have : |((m - k i : ℤ) : K)| * s ≤ s := by
            rw [← abs_of_pos hs, ← abs_mul, abs_of_pos hs, abs_le]
            push_cast
            constructor <;> linarith
          nlinarith
        have hd : |m - k i| < 2 := by exact_mod_cast hd
        have he : m - k i = 1 ∨ m - k i = -1 := by
          rw [abs_lt] at hd; omega
        obtain ⟨kk, hkk⟩ := exists_normal i (m - k i) he
        apply hno
        refine ⟨_, hk, kk, ?_, ?_⟩
        · convert hout using 3
          rename_i j
          rw [hkk]
          by_cases hj : j = i
          · subst hj; simp; ring
          · simp [hj, Function.update_of_ne hj]
        · intro j
          refine ⟨(hp j).1, (hp j).2, ?_⟩
          rw [hkk]
          by_cases hj : j = i
          · subst hj
            simp only [if_true]
            intro _
            rcases he with e | e
            · have em : (m : K) = k j + 1 := by exact_mod_cast (by omega : m = k j + 1)
              rw [e]; push_cast
              rw [em] at h2
              apply le_antisymm <;> linarith
            · have em : (m : K) = k j - 1 := by exact_mod_cast (by omega : m = k j - 1)
              rw [e]; push_cast
              rw [em] at h2
              apply le_antisymm <;> linarith
          · simp [hj]
    have hv' : (fun i => b i + (kv i : K) * s) ∈ l := by rw [← hkv]; exact hv
    have hpv' : InCube b s kv p := by
      intro i
      have := hpv i
      rw [hkv] at this
      exact this
    have all : ∀ k, InCube b s k p → (fun i => b i + (k i : K) * s) ∈ l := by
      intro k hk
      have c1 : InCube b s (Function.update kv 0 (k 0)) p := by
        intro i
        by_cases hi : i = 0
        · subst hi; rw [Function.update_self]; exact hk 0
        · rw [Function.update_of_ne hi]; exact hpv' i
      have m1 := step kv hv' hpv' 0 (k 0) c1
      have c2 : InCube b s (Function.update (Function.update kv 0 (k 0)) 1 (k 1)) p := by
        intro i
        by_cases hi : i = 1
        · subst hi; rw [Function.update_self]; exact hk 1
        · rw [Function.update_of_ne hi]; exact c1 i
      have m2 := step _ m1 c1 1 (k 1) c2
      have c3 : InCube b s (Function.update (Function.update (Function.update kv 0 (k 0)) 1 (k 1)) 2 (k 2)) p := by
        intro i
        by_cases hi : i = 2
        · subst hi; rw [Function.update_self]; exact hk 2
        · rw [Function.update_of_ne hi]; exact c2 i
      have m3 := step _ m2 c2 2 (k 2) c3
      convert m3 using 1
      funext i
      fin_cases i <;> simp [Function.update]
    -- near `p`, every point is in one of these cubes
    have near : ∀ i, ∃ ε > 0, ∀ q : K, |q - p i| < ε →
        ∃ m : ℤ, (b i + m * s - s / 2 ≤ p i ∧ p i ≤ b i + m * s + s / 2) ∧ b i + m * s - s / 2 ≤ q ∧ q ≤ b i + m * s + s / 2 := by
      intro i
      obtain ⟨h1, h2⟩ := hpv' i
      rcases h1.lt_or_eq with h1' | h1'
      · rcases h2.lt_or_eq with h2' | h2'
        · refine ⟨min (p i - (b i + kv i * s - s / 2)) (b i + kv i * s + s / 2 - p i), lt_min (by linarith) (by linarith), ?_⟩
          intro q hq
          rw [lt_min_iff, abs_lt, abs_lt] at hq
          exact ⟨kv i, ⟨h1, h2⟩, by linarith [hq.1.1], by linarith [hq.2.2]⟩
        · refine ⟨s, hs, fun q hq => ?_⟩
          rw [abs_lt] at hq
          rcases le_total q (p i) with hle | hle
          · exact ⟨kv i, ⟨h1, h2⟩, by linarith [hq.1], by linarith⟩
          · refine ⟨kv i + 1, ?_, ?_⟩ <;> push_cast <;> constructor <;> linarith [hq.2]
      · refine ⟨s, hs, fun q hq => ?_⟩
        rw [abs_lt] at hq
        rcases le_total (p i) q with hle | hle
        · exact ⟨kv i, ⟨h1, h2⟩, by linarith, by linarith [hq.2]⟩
        · refine ⟨kv i - 1, ?_, ?_⟩ <;> push_cast <;> constructor <;> linarith [hq.1]
    choose ε hεpos hεm using near
    obtain ⟨q, hq, hqp⟩ := hε (min (ε 0) (min (ε 1) (ε 2))) (lt_min (hεpos 0) (lt_min (hεpos 1) (hεpos 2)))
    apply hq
    have hm : ∀ i, |q i - p i| < ε i := by
      intro i
      have := hqp i
      rw [lt_min_iff, lt_min_iff] at this
      fin_cases i
      · exact this.1
      · exact this.2.1
      · exact this.2.2
    choose m hm1 hm2 using fun i => hεm i (q i) (hm i)
    exact ⟨_, all m hm1, hm2⟩

/-- Two adjacent cubes: hypotheses met. -/
example : ([![(0 : ℚ), 0, 0], ![2, 0, 0]]).Nodup ∧ (0 : ℚ) < 2 ∧ OnCommonGrid {v | v ∈ [![(0 : ℚ), 0, 0], ![2, 0, 0]]} 2 := by
  refine ⟨by decide +kernel, by norm_num, 0, ?_⟩
  intro v hv
  simp only [Set.mem_ofPred_eq, List.mem_cons, List.not_mem_nil, or_false] at hv
  rcases hv with rfl | rfl
  · exact ⟨0, by funext i; fin_cases i <;> simp⟩
  · exact ⟨![1, 0, 0], by funext i; fin_cases i <;> simp⟩

/-- Twenty triangles are left of twenty-four. -/
example : (toTriangles [![(0 : ℚ), 0, 0], ![2, 0, 0]] 2).card = 20 := by decide +kernel

end Volmdlr.Voxel
