import Verif.Frame.Model
import Verif.Vec.Props

/-!
# C03-C06, C63: frames, matrices, projections
-/

namespace Volmdlr
set_option linter.unusedSectionVars false

section ordered
variable {K : Type*} [Field K] [LinearOrder K] [IsStrictOrderedRing K]

/-! ## C05 -/

/-- C05: `Matrix22.inverse` raises `ValueError` exactly when `|det| ≤ 1e-10`, otherwise it returns a
two-sided inverse. -/
theorem C05_inverse22 (a : M22 K) :
    (|a.m11 * a.m22 - a.m12 * a.m21| ≤ 1 / 10 ^ 10 ∧ a.inverse = .error .valueError) ∨
    (1 / 10 ^ 10 < |a.m11 * a.m22 - a.m12 * a.m21| ∧
      ∃ b, a.inverse = .ok b ∧ a.mul b = M22.one ∧ b.mul a = M22.one) := by
  unfold M22.inverse
  by_cases h : |M22.det a| ≤ 1 / 10 ^ 10
  · left; exact ⟨h, if_neg (not_not.mpr h)⟩
  · right
    refine ⟨not_le.mp h, _, by simp only [h, not_false_eq_true, if_true]; rfl, ?_, ?_⟩
    all_goals
      have hd : M22.det a ≠ 0 := by
        intro h0; apply h; rw [h0]; simp
      ext <;> simp only [M22.mul, M22.one] <;> field_simp <;> simp only [M22.det] <;> ring

/-- C05: the determinant is multiplicative (2x2). -/
theorem C05_det22_mul (a b : M22 K) : (a.mul b).det = a.det * b.det := by
  simp only [M22.mul, M22.det]; ring

/-- C05: `Matrix33.inverse` raises `ValueError` exactly when `|det| ≤ 1e-12` (`det` written out by
Sarrus' rule), otherwise it returns a two-sided inverse. -/
theorem C05_inverse33 (a : M33 K) :
    (|a.det| ≤ 1 / 10 ^ 12 ∧ a.inverse = .error .valueError) ∨
    (1 / 10 ^ 12 < |a.det| ∧
      ∃ b, a.inverse = .ok b ∧ a.mul b = M33.one ∧ b.mul a = M33.one) := by
  unfold M33.inverse
  by_cases h : |M33.det a| ≤ 1 / 10 ^ 12
  · left; exact ⟨h, if_neg (not_not.mpr h)⟩
  · right
    refine ⟨not_le.mp h, _, by simp only [h, not_false_eq_true, if_true]; rfl, ?_, ?_⟩
    all_goals
      have hd : M33.det a ≠ 0 := by
        intro h0; apply h; rw [h0]; simp
      ext <;> simp only [M33.mul, M33.one] <;> field_simp <;> simp only [M33.det] <;> ring

/-- C05: the determinant is the triple product of the columns; multiplicative (3x3). -/
theorem C05_det33_mul (a b : M33 K) : (a.mul b).det = a.det * b.det := by
  simp only [M33.mul, M33.det]; ring

/-- C05: the determinant is the mixed product of the columns. -/
theorem C05_det33_triple (u v w : V3 K) :
    (Basis3.transfer ⟨u, v, w⟩).det = V3.dot u (V3.cross v w) := by
  simp only [Basis3.transfer, M33.det, V3.dot, V3.cross]; ring

example : (1 : ℚ) / 10 ^ 12 < |M33.det ⟨2, 0, 1, 0, 3, 0, 1, 0, 1⟩| := by norm_num [M33.det, abs_of_pos]
example : |M22.det (⟨2, 4, 1, 2⟩ : M22 ℚ)| ≤ 1 / 10 ^ 10 := by norm_num [M22.det]

/-! ## C03 -/

/-- The basis is accepted by the library: the determinant of its matrix is above the threshold. -/
def Frame3.Invertible (f : Frame3 K) : Prop :=
  1 / 10 ^ 12 < |V3.dot f.basis.u (V3.cross f.basis.v f.basis.w)|

/-- A coordinate is either zero or not below the library's flush-to-zero threshold `1e-16`. -/
def NotTiny (x : K) : Prop := x = 0 ∨ 1 / 10 ^ 16 ≤ |x|
/-- All coordinates are zero or at least `1e-16` in absolute value. -/
def V3.NotTiny (p : V3 K) : Prop := Volmdlr.NotTiny p.x ∧ Volmdlr.NotTiny p.y ∧ Volmdlr.NotTiny p.z

theorem flush_of_notTiny {x : K} (h : NotTiny x) : flush x = x := by
  unfold flush
  rcases h with h | h
  · subst h; simp
  · rw [if_neg (not_lt.mpr h)]

theorem flush_dist (x : K) : |flush x - x| ≤ 1 / 10 ^ 16 := by
  unfold flush
  split
  · rename_i h; rw [zero_sub, abs_neg]; exact h.le
  · simp

theorem M33.mulVec_dist (m : M33 K) (v : V3 K) :
    |(m.mulVec v).x - (m.cMulVec v).x| ≤ 1 / 10 ^ 16 ∧ |(m.mulVec v).y - (m.cMulVec v).y| ≤ 1 / 10 ^ 16
    ∧ |(m.mulVec v).z - (m.cMulVec v).z| ≤ 1 / 10 ^ 16 :=
  ⟨flush_dist _, flush_dist _, flush_dist _⟩

theorem M33.mulVec_eq {m : M33 K} {v : V3 K} (h : (m.cMulVec v).NotTiny) : m.mulVec v = m.cMulVec v := by
  unfold M33.mulVec
  ext <;> simp only [flush_of_notTiny h.1, flush_of_notTiny h.2.1, flush_of_notTiny h.2.2]

theorem M33.cMulVec_mul (a b : M33 K) (v : V3 K) : (a.mul b).cMulVec v = a.cMulVec (b.cMulVec v) := by
  ext <;> simp only [M33.cMulVec, M33.mul] <;> ring
theorem M33.cMulVec_one (v : V3 K) : M33.one.cMulVec v = v := by
  ext <;> simp [M33.cMulVec, M33.one]

theorem Frame3.inverse_ok {f : Frame3 K} (h : f.Invertible) :
    ∃ b, f.basis.transfer.inverse = .ok b ∧ f.basis.transfer.mul b = M33.one ∧
      b.mul f.basis.transfer = M33.one := by
  rcases C05_inverse33 f.basis.transfer with ⟨h1, -⟩ | ⟨-, h2⟩
  · exfalso
    unfold Frame3.Invertible at h
    rw [C05_det33_triple f.basis.u f.basis.v f.basis.w] at h1
    exact absurd h (not_lt.mpr h1)
  · exact h2

theorem Frame3.inverse_error {f : Frame3 K} (h : ¬ f.Invertible) :
    f.basis.transfer.inverse = .error .valueError := by
  rcases C05_inverse33 f.basis.transfer with ⟨-, h2⟩ | ⟨h1, -⟩
  · exact h2
  · exact absurd (by rw [C05_det33_triple f.basis.u f.basis.v f.basis.w] at h1; exact h1) h

/-- C03 (plane): global → local → global is the identity, for every frame with `|det| > 1e-10`, and
`ValueError` is raised otherwise. -/
theorem C03_frame2d_roundtrip (f : Frame2 K) (p : V2 K) :
    (1 / 10 ^ 10 < |V2.cross f.basis.u f.basis.v| →
      (∃ q, f.globalToLocal p = .ok q ∧ f.localToGlobal q = p) ∧
      f.globalToLocal (f.localToGlobal p) = .ok p) ∧
    (|V2.cross f.basis.u f.basis.v| ≤ 1 / 10 ^ 10 → f.globalToLocal p = .error .valueError) := by
  have key : V2.cross f.basis.u f.basis.v
      = f.basis.transfer.m11 * f.basis.transfer.m22 - f.basis.transfer.m12 * f.basis.transfer.m21 := by
    simp only [V2.cross, Basis2.transfer]; ring
  rw [key]
  constructor
  · intro h
    rcases C05_inverse22 f.basis.transfer with ⟨h1, -⟩ | ⟨-, b, hb, h1, h2⟩
    · exact absurd h (not_lt.mpr h1)
    · have e1 : ∀ v : V2 K, f.basis.transfer.mulVec (b.mulVec v) = v := by
        intro v
        have : (f.basis.transfer.mul b).mulVec v = v := by rw [h1]; ext <;> simp [M22.mulVec, M22.one]
        refine Eq.trans ?_ this; ext <;> simp only [M22.mulVec, M22.mul] <;> ring
      have e2 : ∀ v : V2 K, b.mulVec (f.basis.transfer.mulVec v) = v := by
        intro v
        have : (b.mul f.basis.transfer).mulVec v = v := by rw [h2]; ext <;> simp [M22.mulVec, M22.one]
        refine Eq.trans ?_ this; ext <;> simp only [M22.mulVec, M22.mul] <;> ring
      simp only [Frame2.globalToLocal, Basis2.globalToLocal, hb, Frame2.localToGlobal, Basis2.localToGlobal]
      refine ⟨⟨_, rfl, ?_⟩, ?_⟩
      · rw [e1]; ext <;> simp
      · have : f.basis.transfer.mulVec p + f.origin - f.origin = f.basis.transfer.mulVec p := by
          ext <;> simp
        rw [this]
        show Except.ok _ = _
        rw [e2]
  · intro h
    rcases C05_inverse22 f.basis.transfer with ⟨-, h1⟩ | ⟨h1, -⟩
    · simp only [Frame2.globalToLocal, Basis2.globalToLocal, h1]; rfl
    · exact absurd h1 (not_lt.mpr h)

/-- C03: `q` are the true coordinates of `p` in the frame (specification). -/
def IsCoord (f : Frame3 K) (q p : V3 K) : Prop :=
  p = f.origin + V3.smul q.x f.basis.u + V3.smul q.y f.basis.v + V3.smul q.z f.basis.w

/-- C03 (space), local → global: the result is the point with these coordinates, as soon as the flush
to zero of coordinates below 1e-16 does not act. -/
theorem C03_localToGlobal_coord (f : Frame3 K) (q p : V3 K) (hc : IsCoord f q p)
    (ht : (p - f.origin).NotTiny) : f.localToGlobal q = p := by
  unfold IsCoord at hc
  have h : f.basis.transfer.cMulVec q = p - f.origin := by
    rw [hc]; ext <;> simp [M33.cMulVec, Basis3.transfer] <;> ring
  unfold Frame3.localToGlobal Basis3.localToGlobal
  rw [M33.mulVec_eq (by rw [h]; exact ht), h]
  ext <;> simp

/-- C03 (space), global → local: every accepted frame has unique coordinates for `p`, and they are
returned when no non-zero coordinate is below 1e-16. -/
theorem C03_globalToLocal_coord (f : Frame3 K) (p : V3 K) (hf : f.Invertible) :
    ∃ q, IsCoord f q p ∧ (∀ q', IsCoord f q' p → q' = q) ∧
      (q.NotTiny → f.globalToLocal p = .ok q) ∧
      (∃ r, f.globalToLocal p = .ok r ∧ |r.x - q.x| ≤ 1 / 10 ^ 16 ∧ |r.y - q.y| ≤ 1 / 10 ^ 16 ∧
        |r.z - q.z| ≤ 1 / 10 ^ 16) := by
  obtain ⟨b, hb, h1, h2⟩ := Frame3.inverse_ok hf
  refine ⟨b.cMulVec (p - f.origin), ?_, ?_, ?_, ?_⟩
  · have := M33.cMulVec_mul f.basis.transfer b (p - f.origin)
    rw [h1, M33.cMulVec_one] at this
    unfold IsCoord
    have hx := congrArg V3.x this
    have hy := congrArg V3.y this
    have hz := congrArg V3.z this
    simp only [M33.cMulVec, V3.sub_x, V3.sub_y, V3.sub_z, Basis3.transfer] at hx hy hz
    ext <;> simp only [M33.cMulVec, V3.add_x, V3.add_y, V3.add_z, V3.smul_x, V3.smul_y, V3.smul_z,
      V3.sub_x, V3.sub_y, V3.sub_z]
    · linear_combination hx
    · linear_combination hy
    · linear_combination hz
  · intro q' hq
    have h3 := M33.cMulVec_mul b f.basis.transfer q'
    rw [h2, M33.cMulVec_one] at h3
    have h : f.basis.transfer.cMulVec q' = p - f.origin := by
      unfold IsCoord at hq
      rw [hq]; ext <;> simp [M33.cMulVec, Basis3.transfer] <;> ring
    rw [h] at h3
    exact h3
  · intro ht
    unfold Frame3.globalToLocal Basis3.globalToLocal
    rw [hb]
    show Except.ok _ = _
    rw [M33.mulVec_eq ht]
  · unfold Frame3.globalToLocal Basis3.globalToLocal
    rw [hb]
    exact ⟨_, rfl, M33.mulVec_dist _ _⟩

/-- C03 (space): with exact arithmetic and no coordinate in the flush band, global → local → global
and local → global → local are the identity. -/
theorem C03_frame3d_roundtrip (f : Frame3 K) (p q : V3 K) (hf : f.Invertible) (hpq : IsCoord f q p)
    (hq : q.NotTiny) (hp : (p - f.origin).NotTiny) :
    (∃ r, f.globalToLocal p = .ok r ∧ f.localToGlobal r = p) ∧
    f.globalToLocal (f.localToGlobal q) = .ok q := by
  obtain ⟨q', h1, h2, h3, -⟩ := C03_globalToLocal_coord f p hf
  have hqq := h2 q hpq
  subst hqq
  have e := C03_localToGlobal_coord f q p hpq hp
  exact ⟨⟨q, h3 hq, e⟩, by rw [e]; exact h3 hq⟩

/-- C03 (space), every point: the round trip global → local → global returns to the point up to the
library's own flush threshold: the error is at most `1e-16 (|u| + |v| + |w| + 1)` per coordinate. -/
theorem C03_frame3d_roundtrip_bound (f : Frame3 K) (p : V3 K) (hf : f.Invertible) :
    ∃ r, f.globalToLocal p = .ok r ∧
      |(f.localToGlobal r).x - p.x| ≤ (|f.basis.u.x| + |f.basis.v.x| + |f.basis.w.x| + 1) / 10 ^ 16 ∧
      |(f.localToGlobal r).y - p.y| ≤ (|f.basis.u.y| + |f.basis.v.y| + |f.basis.w.y| + 1) / 10 ^ 16 ∧
      |(f.localToGlobal r).z - p.z| ≤ (|f.basis.u.z| + |f.basis.v.z| + |f.basis.w.z| + 1) / 10 ^ 16 := by
  obtain ⟨q, hq, -, -, r, hr, hx, hy, hz⟩ := C03_globalToLocal_coord f p hf
  refine ⟨r, hr, ?_⟩
  obtain ⟨fx, fy, fz⟩ := M33.mulVec_dist f.basis.transfer r
  unfold IsCoord at hq
  have key : ∀ (a b c e o P : K), |e - (a * r.x + b * r.y + c * r.z)| ≤ 1 / 10 ^ 16 →
      P = o + a * q.x + b * q.y + c * q.z → |e + o - P| ≤ (|a| + |b| + |c| + 1) / 10 ^ 16 := by
    intro a b c e o P he hP
    have e1 : e + o - P = (e - (a * r.x + b * r.y + c * r.z)) + a * (r.x - q.x) + b * (r.y - q.y) + c * (r.z - q.z) := by
      rw [hP]; ring
    rw [e1]
    have t1 := abs_add_le ((e - (a * r.x + b * r.y + c * r.z)) + a * (r.x - q.x) + b * (r.y - q.y)) (c * (r.z - q.z))
    have t2 := abs_add_le ((e - (a * r.x + b * r.y + c * r.z)) + a * (r.x - q.x)) (b * (r.y - q.y))
    have t3 := abs_add_le (e - (a * r.x + b * r.y + c * r.z)) (a * (r.x - q.x))
    rw [abs_mul] at t1 t2 t3
    have m1 := mul_le_mul_of_nonneg_left hx (abs_nonneg a)
    have m2 := mul_le_mul_of_nonneg_left hy (abs_nonneg b)
    have m3 := mul_le_mul_of_nonneg_left hz (abs_nonneg c)
    have e2 : (|a| + |b| + |c| + 1) / 10 ^ 16 = |a| * (1 / 10 ^ 16) + |b| * (1 / 10 ^ 16) + |c| * (1 / 10 ^ 16) + 1 / 10 ^ 16 := by
      ring
    rw [e2]
    linarith
  refine ⟨key _ _ _ _ _ _ fx ?_, key _ _ _ _ _ _ fy ?_, key _ _ _ _ _ _ fz ?_⟩
  · have := congrArg V3.x hq; simp at this; exact this
  · have := congrArg V3.y hq; simp at this; exact this
  · have := congrArg V3.z hq; simp at this; exact this

/-- C03: frames which are not accepted raise `ValueError`. -/
theorem C03_frame3d_singular (f : Frame3 K) (p : V3 K) (hf : ¬ f.Invertible) :
    f.globalToLocal p = .error .valueError := by
  unfold Frame3.globalToLocal Basis3.globalToLocal
  rw [Frame3.inverse_error hf]; rfl

-- hypotheses of the round trip, on a skew frame
example : ∃ (f : Frame3 ℚ) (p q : V3 ℚ), f.Invertible ∧ IsCoord f q p ∧ q.NotTiny ∧ (p - f.origin).NotTiny
    ∧ q ≠ ⟨0, 0, 0⟩ := by
  refine ⟨⟨⟨1, 2, 3⟩, ⟨⟨1, 1, 0⟩, ⟨0, 2, 0⟩, ⟨1, 0, 1⟩⟩⟩, ⟨1 + 1 + 3, 2 + 1 + 4, 3 + 3⟩, ⟨1, 2, 3⟩, ?_, ?_, ?_, ?_, ?_⟩
  · norm_num [Frame3.Invertible, V3.dot, V3.cross]
  · ext <;> norm_num
  · refine ⟨Or.inr ?_, Or.inr ?_, Or.inr ?_⟩ <;> norm_num
  · refine ⟨Or.inr ?_, Or.inr ?_, Or.inr ?_⟩ <;> norm_num
  · intro h; have := congrArg V3.x h; norm_num at this

/-- C03: `Frame3D.frame_mapping` accepts exactly the sides "old" and "new". -/
theorem C03_frameMapping_side (s f : Frame3 K) (side : String) :
    (side ≠ "old" → side ≠ "new" → s.frameMapping f side = .error .valueError) ∧
    (s.frameMapping f "old" = .ok ⟨f.localToGlobal s.origin, ⟨f.basis.localToGlobal s.basis.u,
      f.basis.localToGlobal s.basis.v, f.basis.localToGlobal s.basis.w⟩⟩) := by
  refine ⟨fun h1 h2 => ?_, ?_⟩
  · unfold Frame3.frameMapping; rw [if_neg h2, if_neg h1]
  · unfold Frame3.frameMapping; rw [if_neg (by decide), if_pos rfl]

/-- C03: `frame_mapping(frame, "new")` undoes `frame_mapping(frame, "old")` when no coordinate falls in
the flush band. -/
theorem C03_frameMapping_undo (s f : Frame3 K) (hf : f.Invertible)
    (hs : s.origin.NotTiny ∧ s.basis.u.NotTiny ∧ s.basis.v.NotTiny ∧ s.basis.w.NotTiny)
    (hm : (f.basis.transfer.cMulVec s.origin).NotTiny ∧ (f.basis.transfer.cMulVec s.basis.u).NotTiny ∧
      (f.basis.transfer.cMulVec s.basis.v).NotTiny ∧ (f.basis.transfer.cMulVec s.basis.w).NotTiny) :
    ∃ t, s.frameMapping f "old" = .ok t ∧ t.frameMapping f "new" = .ok s := by
  obtain ⟨b, hb, h1, h2⟩ := Frame3.inverse_ok hf
  refine ⟨_, (C03_frameMapping_side s f "old").2, ?_⟩
  have e : ∀ v : V3 K, v.NotTiny → (f.basis.transfer.cMulVec v).NotTiny →
      b.mulVec (f.basis.transfer.mulVec v) = v := by
    intro v hv hv2
    have h3 := M33.cMulVec_mul b f.basis.transfer v
    rw [h2, M33.cMulVec_one] at h3
    rw [M33.mulVec_eq hv2, M33.mulVec_eq (by rw [← h3]; exact hv), ← h3]
  unfold Frame3.frameMapping
  rw [if_pos rfl]
  simp only [Frame3.globalToLocal, Basis3.globalToLocal, hb, Frame3.localToGlobal, Basis3.localToGlobal]
  have ho : f.basis.transfer.mulVec s.origin + f.origin - f.origin = f.basis.transfer.mulVec s.origin := by
    ext <;> simp
  rw [ho]
  show Except.ok _ = _
  rw [e _ hs.1 hm.1, e _ hs.2.1 hm.2.1, e _ hs.2.2.1 hm.2.2.1, e _ hs.2.2.2 hm.2.2.2]

/-- C03: for points the wrong side is reported as `UnboundLocalError`, never silently accepted. -/
theorem C03_pointMapping_side (p : V3 K) (f : Frame3 K) (side : String) (h1 : side ≠ "old") (h2 : side ≠ "new") :
    p.frameMapping f side = .error .unboundLocal := by
  unfold V3.frameMapping; rw [if_neg h1, if_neg h2]

/-- The basis is orthonormal (specification). -/
def Orthonormal3 (b : Basis3 K) : Prop :=
  V3.dot b.u b.u = 1 ∧ V3.dot b.v b.v = 1 ∧ V3.dot b.w b.w = 1 ∧
  V3.dot b.u b.v = 0 ∧ V3.dot b.u b.w = 0 ∧ V3.dot b.v b.w = 0

/-- C03: an orthonormal frame preserves squared distances (local → global, no coordinate flushed). -/
theorem C03_frame3d_isometry (f : Frame3 K) (q q' p p' : V3 K) (ho : Orthonormal3 f.basis)
    (hc : IsCoord f q p) (hc' : IsCoord f q' p')
    (ht : (p - f.origin).NotTiny) (ht' : (p' - f.origin).NotTiny) :
    V3.sqNorm (f.localToGlobal q - f.localToGlobal q') = V3.sqNorm (q - q') := by
  rw [C03_localToGlobal_coord f q p hc ht, C03_localToGlobal_coord f q' p' hc' ht']
  rw [hc, hc']
  obtain ⟨h1, h2, h3, h4, h5, h6⟩ := ho
  simp only [V3.dot] at h1 h2 h3 h4 h5 h6
  simp only [V3.sqNorm, V3.sub_x, V3.sub_y, V3.sub_z, V3.add_x, V3.add_y, V3.add_z, V3.smul_x, V3.smul_y, V3.smul_z]
  linear_combination (q.x - q'.x)^2 * h1 + (q.y - q'.y)^2 * h2 + (q.z - q'.z)^2 * h3
    + 2 * (q.x - q'.x) * (q.y - q'.y) * h4 + 2 * (q.x - q'.x) * (q.z - q'.z) * h5
    + 2 * (q.y - q'.y) * (q.z - q'.z) * h6

/-! ## C04 -/

/-- C04: `frame1 + frame2` is the composition of the two local-to-global maps: the point with
coordinates `q` in the sum is the point whose coordinates in `frame1` are the `frame2`-image of `q`
(no coordinate of frame2's origin image flushed). -/
theorem C04_add_composition (f g : Frame3 K) (q m p : V3 K) (h : (f.basis.transfer.cMulVec g.origin).NotTiny)
    (hm : IsCoord g q m) (hp : IsCoord f m p) : IsCoord (f.add g) q p := by
  unfold IsCoord at *
  simp only [Frame3.add]
  rw [M33.mulVec_eq h]
  rw [hp, hm]
  ext <;> simp [M33.cMulVec, Basis3.transfer, Basis3.ofMatrix, M33.mul] <;> ring

/-- C04: subtraction cancels addition: `(f + g) - f = g`. -/
theorem C04_add_sub_left (f g : Frame3 K) (hf : f.Invertible) (h : (f.basis.transfer.cMulVec g.origin).NotTiny)
    (h' : g.origin.NotTiny) : (f.add g).sub f = .ok g := by
  obtain ⟨b, hb, h1, h2⟩ := Frame3.inverse_ok hf
  unfold Frame3.sub
  rw [hb]
  show Except.ok _ = _
  congr 1
  have e : (f.add g).origin - f.origin = f.basis.transfer.cMulVec g.origin := by
    simp only [Frame3.add]; rw [M33.mulVec_eq h]; ext <;> simp
  have h3 := M33.cMulVec_mul b f.basis.transfer g.origin
  rw [h2, M33.cMulVec_one] at h3
  have e2 : b.mul (f.add g).basis.transfer = g.basis.transfer := by
    have e3 : (f.add g).basis.transfer = f.basis.transfer.mul g.basis.transfer := by
      ext <;> simp [Frame3.add, Basis3.transfer, Basis3.ofMatrix]
    have e4 : b.mul (f.basis.transfer.mul g.basis.transfer) = (b.mul f.basis.transfer).mul g.basis.transfer := by
      ext <;> simp only [M33.mul] <;> ring
    rw [e3, e4, h2]
    ext <;> simp [M33.mul, M33.one]
  rw [e, M33.mulVec_eq (by rw [← h3]; exact h'), ← h3, e2]
  ext <;> simp [Basis3.ofMatrix, Basis3.transfer]

/-- C04 as stated in English: `(f + g) - g = f`, and `-f` is the inverse transformation. -/
def C04_full_statement (K : Type*) [Field K] [LinearOrder K] : Prop :=
  (∀ f g : Frame3 K, g.Invertible → f.origin.NotTiny → (f.add g).sub g = .ok f) ∧
  (∀ f g : Frame3 K, f.Invertible → f.neg = .ok g → ∀ p q, IsCoord f q p → IsCoord g p q)

/-- C04 is false in both parts: `(f + g) - g ≠ f` (the operators do not commute) and `-f` has the
origin with the wrong sign. -/
theorem C04_counterexample :
    (∃ f g : Frame3 ℚ, g.Invertible ∧ f.origin.NotTiny ∧ (f.add g).sub g ≠ .ok f) ∧
    (∃ f g : Frame3 ℚ, f.Invertible ∧ f.neg = .ok g ∧ ∃ p q, IsCoord f q p ∧ ¬ IsCoord g p q) := by
  constructor
  · refine ⟨⟨⟨1, 0, 0⟩, ⟨⟨1, 0, 0⟩, ⟨0, 1, 0⟩, ⟨0, 0, 1⟩⟩⟩, ⟨⟨0, 0, 0⟩, ⟨⟨0, 1, 0⟩, ⟨-1, 0, 0⟩, ⟨0, 0, 1⟩⟩⟩, ?_, ?_, ?_⟩
    · norm_num [Frame3.Invertible, V3.dot, V3.cross]
    · exact ⟨Or.inr (by norm_num), Or.inl rfl, Or.inl rfl⟩
    · intro h
      norm_num [Frame3.add, Frame3.sub, M33.inverse, M33.det, Basis3.transfer, Basis3.ofMatrix, M33.mul, M33.mulVec,
        M33.cMulVec, flush, bind, Except.bind, pure, Except.pure, Frame3.ext_iff, V3.ext_iff, Basis3.ext_iff] at h
  · refine ⟨⟨⟨1, 0, 0⟩, ⟨⟨1, 0, 0⟩, ⟨0, 1, 0⟩, ⟨0, 0, 1⟩⟩⟩, ⟨⟨1, 0, 0⟩, ⟨⟨1, 0, 0⟩, ⟨0, 1, 0⟩, ⟨0, 0, 1⟩⟩⟩, ?_, ?_,
      ⟨1, 0, 0⟩, ⟨0, 0, 0⟩, ?_, ?_⟩
    · norm_num [Frame3.Invertible, V3.dot, V3.cross]
    · norm_num [Frame3.neg, M33.inverse, M33.det, Basis3.transfer, Basis3.ofMatrix, M33.mul, M33.mulVec,
        M33.cMulVec, flush, bind, Except.bind, pure, Except.pure]
    · norm_num [IsCoord, V3.ext_iff]
    · norm_num [IsCoord, V3.ext_iff]

/-- C04 (partial): `-f` has the basis of the inverse transformation; it *is* the inverse transformation
for frames with zero origin.  Missing: the sign of the origin. -/
theorem C04_neg_partial (f g : Frame3 K) (hf : f.Invertible) (h : f.neg = .ok g) (h0 : f.origin = ⟨0, 0, 0⟩)
    (p q : V3 K) (hpq : IsCoord f q p) : IsCoord g p q := by
  obtain ⟨b, hb, h1, h2⟩ := Frame3.inverse_ok hf
  unfold Frame3.neg at h
  rw [hb] at h
  have hg : g = ⟨b.mulVec f.origin, Basis3.ofMatrix b⟩ := by cases h; rfl
  subst hg
  have h3 := M33.cMulVec_mul b f.basis.transfer q
  rw [h2, M33.cMulVec_one] at h3
  unfold IsCoord at *
  rw [h0] at hpq ⊢
  have hp : p = f.basis.transfer.cMulVec q := by
    rw [hpq]; ext <;> simp [M33.cMulVec, Basis3.transfer] <;> ring
  rw [hp]
  have h5 : b.mulVec (⟨0, 0, 0⟩ : V3 K) = ⟨0, 0, 0⟩ := by
    ext <;> simp [M33.mulVec, M33.cMulVec, flush]
  simp only [h5]
  generalize f.basis.transfer.cMulVec q = r at h3 ⊢
  rw [h3]
  ext <;> simp [M33.cMulVec, Basis3.ofMatrix] <;> ring

/-- C04 (partial): the basis algebra is right: `-b` inverts, `(a + b) - a = b`. -/
theorem C04_basis (a b : Basis3 K) (h : 1 / 10 ^ 12 < |a.transfer.det|) :
    (a.add b).sub a = .ok b ∧ ∃ c, a.neg = .ok c ∧ (a.add c).transfer = M33.one ∧ (c.add a).transfer = M33.one := by
  rcases C05_inverse33 a.transfer with ⟨h1, -⟩ | ⟨-, i, hi, h1, h2⟩
  · exact absurd h (not_lt.mpr h1)
  · constructor
    · unfold Basis3.sub
      rw [hi]
      show Except.ok _ = _
      have e : (a.add b).transfer = a.transfer.mul b.transfer := rfl
      have e4 : i.mul (a.transfer.mul b.transfer) = (i.mul a.transfer).mul b.transfer := by
        ext <;> simp only [M33.mul] <;> ring
      rw [e, e4, h2]
      congr 1
      ext <;> simp [Basis3.ofMatrix, M33.mul, M33.one, Basis3.transfer]
    · refine ⟨Basis3.ofMatrix i, ?_, ?_, ?_⟩
      · unfold Basis3.neg; rw [hi]; rfl
      · exact h1
      · exact h2

/-- C04 (plane): `Frame2D.__add__` is composition, exactly. -/
theorem C04_add2d_composition (f g : Frame2 K) (q : V2 K) :
    (f.add g).localToGlobal q = f.localToGlobal (g.localToGlobal q) := by
  ext <;> simp [Frame2.add, Frame2.localToGlobal, Basis2.localToGlobal, Basis2.transfer, M22.mulVec, M22.mul] <;> ring

end ordered

/-! ## C06 -/

section
variable {K : Type*} [Field K] [LinearOrder K] [IsStrictOrderedRing K]

/-- C06: for orthonormal `vx, vy`, `Vector2D.to_3d` followed by `to_2d` is the identity. -/
theorem C06_to3d_to2d (p : V2 K) (o vx vy : V3 K) (hx : V3.dot vx vx = 1) (hy : V3.dot vy vy = 1)
    (hxy : V3.dot vx vy = 0) : V3.to2d (V2.vecTo3d p o vx vy) o vx vy = p := by
  simp only [V3.dot] at hx hy hxy
  ext <;> simp only [V3.to2d, V2.vecTo3d, V3.dot]
  · linear_combination p.x * hx + p.y * hxy
  · linear_combination p.y * hy + p.x * hxy

theorem round12_dist [FloorRing K] (x : K) : |round12 x - x| ≤ 1 / (2 * 10 ^ 12) := by
  unfold round12
  have h := abs_sub_round (x * 10 ^ 12)
  have h10 : (0 : K) < 10 ^ 12 := by positivity
  have e : (round (x * 10 ^ 12) : ℤ) / (10 : K) ^ 12 - x = -(x * 10 ^ 12 - round (x * 10 ^ 12)) / 10 ^ 12 := by
    field_simp; ring
  rw [e, abs_div, abs_neg, abs_of_pos h10, div_le_iff₀ h10]
  calc _ ≤ (1 : K) / 2 := h
    _ = _ := by field_simp

/-- C06: `Point2D.to_3d` rounds to 12 digits: the round trip 2D → 3D → 2D returns to the point with an
error of at most `5e-13` times the sum of the absolute coordinates of the axis. -/
theorem C06_point_to3d_to2d [FloorRing K] (p : V2 K) (o vx vy : V3 K) (hx : V3.dot vx vx = 1)
    (hy : V3.dot vy vy = 1) (hxy : V3.dot vx vy = 0) :
    |(V3.to2d (V2.ptTo3d p o vx vy) o vx vy).x - p.x| ≤ (|vx.x| + |vx.y| + |vx.z|) / (2 * 10 ^ 12) ∧
    |(V3.to2d (V2.ptTo3d p o vx vy) o vx vy).y - p.y| ≤ (|vy.x| + |vy.y| + |vy.z|) / (2 * 10 ^ 12) := by
  have hid := C06_to3d_to2d p o vx vy hx hy hxy
  have d1 := round12_dist (o.x + vx.x * p.x + vy.x * p.y)
  have d2 := round12_dist (o.y + vx.y * p.x + vy.y * p.y)
  have d3 := round12_dist (o.z + vx.z * p.x + vy.z * p.y)
  have ex := congrArg V2.x hid
  have ey := congrArg V2.y hid
  simp only [V3.to2d, V2.vecTo3d, V3.dot] at ex ey
  simp only [V3.to2d, V2.ptTo3d, V3.dot]
  generalize round12 (o.x + vx.x * p.x + vy.x * p.y) = r1 at *
  generalize round12 (o.y + vx.y * p.x + vy.y * p.y) = r2 at *
  generalize round12 (o.z + vx.z * p.x + vy.z * p.y) = r3 at *
  generalize hX : o.x + vx.x * p.x + vy.x * p.y = X at *
  generalize hY : o.y + vx.y * p.x + vy.y * p.y = Y at *
  generalize hZ : o.z + vx.z * p.x + vy.z * p.y = Z at *
  have key : ∀ a b c : K, |(r1 - X) * a + (r2 - Y) * b + (r3 - Z) * c| ≤ (|a| + |b| + |c|) / (2 * 10 ^ 12) := by
    intro a b c
    have t1 := abs_add_le ((r1 - X) * a + (r2 - Y) * b) ((r3 - Z) * c)
    have t2 := abs_add_le ((r1 - X) * a) ((r2 - Y) * b)
    rw [abs_mul] at t1 t2
    rw [abs_mul] at t2
    have m1 := mul_le_mul_of_nonneg_right d1 (abs_nonneg a)
    have m2 := mul_le_mul_of_nonneg_right d2 (abs_nonneg b)
    have m3 := mul_le_mul_of_nonneg_right d3 (abs_nonneg c)
    have e : (|a| + |b| + |c|) / (2 * 10 ^ 12) = 1 / (2 * 10 ^ 12) * |a| + 1 / (2 * 10 ^ 12) * |b| + 1 / (2 * 10 ^ 12) * |c| := by
      ring
    rw [e]; linarith
  constructor
  · have := key vx.x vx.y vx.z
    convert this using 2
    linear_combination ex
  · have := key vy.x vy.y vy.z
    convert this using 2
    linear_combination ey

/-- C06: `to_2d` then `to_3d` gives back every point of the plane. -/
theorem C06_to2d_to3d (a b : K) (o vx vy : V3 K) (hx : V3.dot vx vx = 1) (hy : V3.dot vy vy = 1)
    (hxy : V3.dot vx vy = 0) :
    V2.vecTo3d (V3.to2d (o + V3.smul a vx + V3.smul b vy) o vx vy) o vx vy
      = o + V3.smul a vx + V3.smul b vy := by
  simp only [V3.dot] at hx hy hxy
  ext <;> simp only [V3.to2d, V2.vecTo3d, V3.dot, V3.add_x, V3.add_y, V3.add_z, V3.smul_x, V3.smul_y, V3.smul_z]
  · linear_combination (vx.x * a) * hx + (vx.x * b + vy.x * a) * hxy + (vy.x * b) * hy
  · linear_combination (vx.y * a) * hx + (vx.y * b + vy.y * a) * hxy + (vy.y * b) * hy
  · linear_combination (vx.z * a) * hx + (vx.z * b + vy.z * a) * hxy + (vy.z * b) * hy

example : V3.dot (⟨3/5, 4/5, 0⟩ : V3 ℚ) ⟨3/5, 4/5, 0⟩ = 1 ∧ V3.dot (⟨0, 0, 1⟩ : V3 ℚ) ⟨0, 0, 1⟩ = 1 ∧
    V3.dot (⟨3/5, 4/5, 0⟩ : V3 ℚ) ⟨0, 0, 1⟩ = 0 := by norm_num [V3.dot]
end

theorem V3.norm_eq_zero_iff (u : V3 ℝ) : V3.norm u = 0 ↔ u = ⟨0, 0, 0⟩ := by
  unfold V3.norm
  rw [Real.sqrt_eq_zero (by nlinarith [mul_self_nonneg u.x, mul_self_nonneg u.y, mul_self_nonneg u.z])]
  constructor
  · intro h
    ext <;> dsimp only <;> nlinarith [mul_self_nonneg u.x, mul_self_nonneg u.y, mul_self_nonneg u.z]
  · rintro rfl; simp

theorem V3.norm_sq (u : V3 ℝ) : V3.norm u * V3.norm u = V3.dot u u := by
  unfold V3.norm V3.dot
  exact Real.mul_self_sqrt (by nlinarith [mul_self_nonneg u.x, mul_self_nonneg u.y, mul_self_nonneg u.z])

theorem V3.norm_nonneg (u : V3 ℝ) : 0 ≤ V3.norm u := Real.sqrt_nonneg _

theorem V3.unitVector_spec {u n : V3 ℝ} (h : V3.unitVector u = some n) :
    0 < V3.norm u ∧ u = V3.smul (V3.norm u) n ∧ V3.dot n n = 1 := by
  unfold V3.unitVector at h
  split at h
  · cases h
  · rename_i h0
    cases h
    have hpos := lt_of_le_of_ne (V3.norm_nonneg u) (Ne.symm h0)
    refine ⟨hpos, ?_, ?_⟩
    · ext <;> simp <;> field_simp
    · have := V3.norm_sq u
      simp only [V3.dot] at *
      field_simp
      linarith

theorem V3.unitVector_some {u : V3 ℝ} (h : u ≠ ⟨0, 0, 0⟩) : ∃ n, V3.unitVector u = some n := by
  unfold V3.unitVector
  rw [if_neg (by rwa [V3.norm_eq_zero_iff])]
  exact ⟨_, rfl⟩

/-- C06: for `x, y` not parallel (any lengths) `plane_projection3d` returns the point of the plane
through `o` parallel to `x, y` whose difference to `p` is orthogonal to `x` and `y`; projecting again
changes nothing; for parallel `x, y` it raises `ZeroDivisionError`. -/
theorem C06_planeProjection3d (p o x y : V3 ℝ) :
    (V3.cross x y = ⟨0, 0, 0⟩ → V3.planeProjection3d p o x y = none) ∧
    (V3.cross x y ≠ ⟨0, 0, 0⟩ → ∃ q, V3.planeProjection3d p o x y = some q ∧
      V3.dot (q - o) (V3.cross x y) = 0 ∧ V3.dot (p - q) x = 0 ∧ V3.dot (p - q) y = 0 ∧
      V3.planeProjection3d q o x y = some q) := by
  constructor
  · intro h
    unfold V3.planeProjection3d V3.unitVector
    rw [if_pos ((V3.norm_eq_zero_iff _).mpr h)]; rfl
  · intro h
    obtain ⟨n, hn⟩ := V3.unitVector_some h
    obtain ⟨hpos, hu, h1⟩ := V3.unitVector_spec hn
    have hx : V3.dot n x = 0 := by
      have : V3.dot (V3.cross x y) x = 0 := by simp only [V3.dot, V3.cross]; ring
      rw [hu] at this
      have e : V3.dot (V3.smul (V3.norm (V3.cross x y)) n) x = V3.norm (V3.cross x y) * V3.dot n x := by
        simp only [V3.dot, V3.smul_x, V3.smul_y, V3.smul_z]; ring
      rw [e] at this
      exact (mul_eq_zero.mp this).resolve_left hpos.ne'
    have hy : V3.dot n y = 0 := by
      have : V3.dot (V3.cross x y) y = 0 := by simp only [V3.dot, V3.cross]; ring
      rw [hu] at this
      have e : V3.dot (V3.smul (V3.norm (V3.cross x y)) n) y = V3.norm (V3.cross x y) * V3.dot n y := by
        simp only [V3.dot, V3.smul_x, V3.smul_y, V3.smul_z]; ring
      rw [e] at this
      exact (mul_eq_zero.mp this).resolve_left hpos.ne'
    have hq : V3.dot n (p - V3.smul (V3.dot n (p - o)) n - o) = 0 := by
      simp only [V3.dot, V3.sub_x, V3.sub_y, V3.sub_z, V3.smul_x, V3.smul_y, V3.smul_z] at *
      linear_combination -(n.x * (p.x - o.x) + n.y * (p.y - o.y) + n.z * (p.z - o.z)) * h1
    refine ⟨p - V3.smul (V3.dot n (p - o)) n, ?_, ?_, ?_, ?_, ?_⟩
    · unfold V3.planeProjection3d; rw [hn]; rfl
    · rw [hu]
      simp only [V3.dot, V3.sub_x, V3.sub_y, V3.sub_z, V3.smul_x, V3.smul_y, V3.smul_z] at *
      linear_combination (V3.norm (V3.cross x y)) * hq
    · generalize V3.dot n (p - o) = k
      simp only [V3.dot, V3.sub_x, V3.sub_y, V3.sub_z, V3.smul_x, V3.smul_y, V3.smul_z] at *
      linear_combination k * hx
    · generalize V3.dot n (p - o) = k
      simp only [V3.dot, V3.sub_x, V3.sub_y, V3.sub_z, V3.smul_x, V3.smul_y, V3.smul_z] at *
      linear_combination k * hy
    · unfold V3.planeProjection3d; rw [hn]
      show some _ = _
      rw [hq]
      congr 1
      ext <;> simp

example : V3.cross (⟨1, 2, 0⟩ : V3 ℝ) ⟨0, 1, 1⟩ ≠ ⟨0, 0, 0⟩ := by
  intro h; have := congrArg V3.x h; norm_num [V3.cross] at this

/-! ## C63: constructions of frames -/

/-- A direct orthonormal basis (specification). -/
def DirectOrthonormal (b : Basis3 ℝ) : Prop :=
  V3.dot b.u b.u = 1 ∧ V3.dot b.v b.v = 1 ∧ V3.dot b.w b.w = 1 ∧
  V3.dot b.u b.v = 0 ∧ V3.dot b.u b.w = 0 ∧ V3.dot b.v b.w = 0 ∧ V3.dot (V3.cross b.u b.v) b.w = 1

theorem direct_of_uv {u v : V3 ℝ} (hu : V3.dot u u = 1) (hv : V3.dot v v = 1) (huv : V3.dot u v = 0) :
    DirectOrthonormal ⟨u, v, V3.cross u v⟩ := by
  simp only [DirectOrthonormal, V3.dot, V3.cross] at *
  have hw : (u.y * v.z - u.z * v.y) * (u.y * v.z - u.z * v.y) + (u.z * v.x - u.x * v.z) * (u.z * v.x - u.x * v.z) +
      (u.x * v.y - u.y * v.x) * (u.x * v.y - u.y * v.x) = 1 := by
    linear_combination (v.x * v.x + v.y * v.y + v.z * v.z) * hu + hv - (u.x * v.x + u.y * v.y + u.z * v.z) * huv
  refine ⟨hu, hv, hw, huv, by ring, by ring, hw⟩

/-- C63: `Basis3D.from_two_vectors` gives a direct orthonormal basis with first vector along `vector1`
and second in the plane of the two vectors on the side of `vector2`, when `vector1` is a unit vector.
Missing (see the counterexample): `vector1` of another length. -/
theorem C63_fromTwoVectors_partial (v1 v2 : V3 ℝ) (h1 : V3.dot v1 v1 = 1) (b : Basis3 ℝ)
    (hb : Basis3.fromTwoVectors v1 v2 = some b) :
    DirectOrthonormal b ∧ b.u = v1 ∧ 0 < V3.dot b.v v2 ∧ V3.dot b.w v2 = 0 := by
  unfold Basis3.fromTwoVectors at hb
  have hn : V3.norm v1 = 1 := by
    have := V3.norm_sq v1; rw [h1] at this
    nlinarith [V3.norm_nonneg v1]
  have hu : V3.unitVector v1 = some v1 := by
    unfold V3.unitVector; rw [hn]; simp
  rw [hu] at hb
  cases hv : V3.unitVector (v2 - V3.smul (V3.dot v2 v1) v1) with
  | none => rw [hv] at hb; cases hb
  | some v =>
    rw [hv] at hb
    cases hb
    obtain ⟨hpos, he, hvv⟩ := V3.unitVector_spec hv
    set n := V3.norm (v2 - V3.smul (V3.dot v2 v1) v1)
    have huv : V3.dot v1 v = 0 := by
      have : V3.dot v1 (v2 - V3.smul (V3.dot v2 v1) v1) = 0 := by
        simp only [V3.dot, V3.sub_x, V3.sub_y, V3.sub_z, V3.smul_x, V3.smul_y, V3.smul_z] at *
        linear_combination -(v2.x * v1.x + v2.y * v1.y + v2.z * v1.z) * h1
      rw [he] at this
      have e : V3.dot v1 (V3.smul n v) = n * V3.dot v1 v := by
        simp only [V3.dot, V3.smul_x, V3.smul_y, V3.smul_z]; ring
      rw [e] at this
      exact (mul_eq_zero.mp this).resolve_left hpos.ne'
    have e2 : v2 = V3.smul n v + V3.smul (V3.dot v2 v1) v1 := by
      rw [← he]; ext <;> simp
    refine ⟨direct_of_uv h1 hvv huv, rfl, ?_, ?_⟩
    · have : V3.dot v v2 = n := by
        rw [e2]
        simp only [V3.dot, V3.add_x, V3.add_y, V3.add_z, V3.smul_x, V3.smul_y, V3.smul_z] at *
        linear_combination n * hvv + (v2.x * v1.x + v2.y * v1.y + v2.z * v1.z) * huv
      rw [this]; exact hpos
    · rw [e2]
      generalize V3.dot v2 v1 = k
      simp only [V3.dot, V3.cross, V3.add_x, V3.add_y, V3.add_z, V3.smul_x, V3.smul_y, V3.smul_z] at *
      ring

/-- C63: for a first vector of length ≠ 1 the basis need not be orthogonal. -/
theorem C63_fromTwoVectors_counterexample :
    ∃ (v1 v2 : V3 ℝ) (b : Basis3 ℝ), Basis3.fromTwoVectors v1 v2 = some b ∧ V3.dot b.u b.v ≠ 0 := by
  have e1 : V3.norm (⟨2, 0, 0⟩ : V3 ℝ) = 2 := by
    unfold V3.norm; norm_num
    rw [show (4:ℝ) = 2 ^ 2 by norm_num, Real.sqrt_sq (by norm_num)]
  have e2 : V3.norm (⟨-3, 4, 0⟩ : V3 ℝ) = 5 := by
    unfold V3.norm; norm_num
    rw [show (25:ℝ) = 5 ^ 2 by norm_num, Real.sqrt_sq (by norm_num)]
  refine ⟨⟨2, 0, 0⟩, ⟨1, 4, 0⟩, ⟨⟨1, 0, 0⟩, ⟨-3/5, 4/5, 0⟩, V3.cross ⟨1, 0, 0⟩ ⟨-3/5, 4/5, 0⟩⟩, ?_, ?_⟩
  · have h : (⟨1, 4, 0⟩ : V3 ℝ) - V3.smul (V3.dot ⟨1, 4, 0⟩ ⟨2, 0, 0⟩) ⟨2, 0, 0⟩ = ⟨-3, 4, 0⟩ := by
      ext <;> simp [V3.dot] <;> norm_num
    unfold Basis3.fromTwoVectors
    rw [h]
    unfold V3.unitVector
    rw [e1, e2]
    norm_num
  · norm_num [V3.dot]

/-- C63: `Frame3D.from_3_points` gives a direct orthonormal frame at `point1`, whose first axis points to
`point2` and whose plane contains the three points; it fails exactly for aligned points. -/
theorem C63_from3Points (p1 p2 p3 : V3 ℝ) :
    (V3.cross (p2 - p1) (p3 - p1) = ⟨0, 0, 0⟩ → Frame3.from3Points p1 p2 p3 = none) ∧
    (V3.cross (p2 - p1) (p3 - p1) ≠ ⟨0, 0, 0⟩ → ∃ f, Frame3.from3Points p1 p2 p3 = some f ∧
      f.origin = p1 ∧ DirectOrthonormal f.basis ∧
      (∃ k, 0 < k ∧ p2 - p1 = V3.smul k f.basis.u) ∧
      V3.dot (p3 - p1) f.basis.w = 0 ∧ 0 < V3.dot (p3 - p1) f.basis.v) := by
  constructor
  · intro h
    unfold Frame3.from3Points
    cases h1 : V3.unitVector (p2 - p1) with
    | none => rfl
    | some v1 =>
      cases h2 : V3.unitVector (p3 - p1) with
      | none => rfl
      | some v2 =>
        obtain ⟨a, ha, -⟩ := V3.unitVector_spec h1
        obtain ⟨b, hb, -⟩ := V3.unitVector_spec h2
        have : V3.cross v1 v2 = ⟨0, 0, 0⟩ := by
          rw [ha, hb] at h
          generalize V3.norm (p2 - p1) = x at *
          generalize V3.norm (p3 - p1) = y at *
          have hxy : x * y ≠ 0 := (mul_pos a b).ne'
          have hx := congrArg V3.x h
          have hy := congrArg V3.y h
          have hz := congrArg V3.z h
          simp only [V3.cross, V3.smul_x, V3.smul_y, V3.smul_z] at hx hy hz
          ext <;> simp only [V3.cross]
          · exact (mul_eq_zero.mp (show x * y * _ = 0 by linear_combination hx)).resolve_left hxy
          · exact (mul_eq_zero.mp (show x * y * _ = 0 by linear_combination hy)).resolve_left hxy
          · exact (mul_eq_zero.mp (show x * y * _ = 0 by linear_combination hz)).resolve_left hxy
        show (V3.unitVector (V3.cross v1 v2)).bind _ = none
        rw [this]
        have : V3.unitVector (⟨0, 0, 0⟩ : V3 ℝ) = none := by
          unfold V3.unitVector; rw [if_pos ((V3.norm_eq_zero_iff _).mpr rfl)]
        rw [this]; rfl
  · intro h
    obtain ⟨v1, h1⟩ : ∃ v1, V3.unitVector (p2 - p1) = some v1 := by
      apply V3.unitVector_some; intro h0; apply h; rw [h0]; ext <;> simp [V3.cross]
    obtain ⟨v2, h2⟩ : ∃ v1, V3.unitVector (p3 - p1) = some v1 := by
      apply V3.unitVector_some; intro h0; apply h; rw [h0]; ext <;> simp [V3.cross]
    obtain ⟨apos, ha, ha1⟩ := V3.unitVector_spec h1
    obtain ⟨bpos, hb, hb1⟩ := V3.unitVector_spec h2
    have hc : V3.cross v1 v2 ≠ ⟨0, 0, 0⟩ := by
      intro h0; apply h; rw [ha, hb]
      have hx := congrArg V3.x h0
      have hy := congrArg V3.y h0
      have hz := congrArg V3.z h0
      generalize V3.norm (p2 - p1) = x at *
      generalize V3.norm (p3 - p1) = y at *
      simp only [V3.cross] at hx hy hz
      ext <;> simp only [V3.cross, V3.smul_x, V3.smul_y, V3.smul_z]
      · linear_combination x * y * hx
      · linear_combination x * y * hy
      · linear_combination x * y * hz
    obtain ⟨n, hn⟩ := V3.unitVector_some hc
    obtain ⟨npos, hn', hn1⟩ := V3.unitVector_spec hn
    refine ⟨⟨p1, ⟨v1, V3.cross n v1, n⟩⟩, ?_, rfl, ?_, ⟨_, apos, ha⟩, ?_, ?_⟩
    · unfold Frame3.from3Points; rw [h1, h2]
      show (V3.unitVector (V3.cross v1 v2)).bind _ = _
      rw [hn]; rfl
    all_goals
      generalize V3.norm (V3.cross v1 v2) = c at *
      have d1 : V3.dot n v1 = 0 := by
        have e : c * V3.dot n v1 = V3.dot (V3.cross v1 v2) v1 := by
          rw [hn']; simp only [V3.dot, V3.smul_x, V3.smul_y, V3.smul_z]; ring
        have e' : V3.dot (V3.cross v1 v2) v1 = 0 := by simp only [V3.dot, V3.cross]; ring
        rw [e'] at e
        exact (mul_eq_zero.mp e).resolve_left npos.ne'
      have d2 : V3.dot n v2 = 0 := by
        have e : c * V3.dot n v2 = V3.dot (V3.cross v1 v2) v2 := by
          rw [hn']; simp only [V3.dot, V3.smul_x, V3.smul_y, V3.smul_z]; ring
        have e' : V3.dot (V3.cross v1 v2) v2 = 0 := by simp only [V3.dot, V3.cross]; ring
        rw [e'] at e
        exact (mul_eq_zero.mp e).resolve_left npos.ne'
    · have hv : V3.dot (V3.cross n v1) (V3.cross n v1) = 1 := by
        simp only [V3.dot, V3.cross] at *
        linear_combination (v1.x * v1.x + v1.y * v1.y + v1.z * v1.z) * hn1 + ha1 - (n.x * v1.x + n.y * v1.y + n.z * v1.z) * d1
      have key := direct_of_uv ha1 hv (by simp only [V3.dot, V3.cross]; ring)
      have e : V3.cross v1 (V3.cross n v1) = n := by
        simp only [V3.dot] at ha1 d1
        ext <;> simp only [V3.cross]
        · linear_combination n.x * ha1 - v1.x * d1
        · linear_combination n.y * ha1 - v1.y * d1
        · linear_combination n.z * ha1 - v1.z * d1
      rw [e] at key; exact key
    · rw [hb]
      generalize V3.norm (p3 - p1) = y at *
      simp only [V3.dot, V3.smul_x, V3.smul_y, V3.smul_z] at *
      linear_combination y * d2
    · rw [hb]
      have e : V3.dot (V3.smul (V3.norm (p3 - p1)) v2) (V3.cross n v1) = V3.norm (p3 - p1) * c := by
        have hx := congrArg V3.x hn'
        have hy := congrArg V3.y hn'
        have hz := congrArg V3.z hn'
        generalize V3.norm (p3 - p1) = y at *
        simp only [V3.dot, V3.cross, V3.smul_x, V3.smul_y, V3.smul_z] at *
        linear_combination y * n.x * hx + y * n.y * hy + y * n.z * hz + y * c * hn1
      rw [e]; exact mul_pos bpos npos

example : V3.cross ((⟨1, 0, 0⟩ : V3 ℝ) - ⟨0, 0, 0⟩) (⟨0, 1, 1⟩ - ⟨0, 0, 0⟩) ≠ ⟨0, 0, 0⟩ := by
  intro h; have := congrArg V3.z h; norm_num [V3.cross] at this

/-- C63: `Frame3D.from_point_and_normal` with a unit normal (longer than the tiny `(0, y, 0)` case is
automatic) gives a direct orthonormal frame whose third axis is the normal. -/
theorem C63_fromPointAndNormal (o n : V3 ℝ) (hn : V3.dot n n = 1) :
    ∃ f, Frame3.fromPointAndNormal o n = some f ∧ f.origin = o ∧ f.basis.w = n ∧ DirectOrthonormal f.basis := by
  rcases C06_deterministic_normal n with ⟨h0, -⟩ | ⟨-, m, hm, hdot, hz⟩
  · rw [h0] at hn; norm_num [V3.dot] at hn
  · have hm0 : m ≠ ⟨0, 0, 0⟩ := by
      intro h
      obtain ⟨hx, hz', hy⟩ := hz.mp h
      simp only [V3.dot, hx, hz'] at hn
      have : n.y * n.y = 1 := by linarith
      rw [← abs_mul_abs_self] at this
      nlinarith [abs_nonneg n.y]
    obtain ⟨u, hu⟩ := V3.unitVector_some hm0
    obtain ⟨hpos, he, hu1⟩ := V3.unitVector_spec hu
    have hun : V3.dot u n = 0 := by
      rw [he] at hdot
      have e : V3.norm m * V3.dot u n = V3.dot (V3.smul (V3.norm m) u) n := by
        simp only [V3.dot, V3.smul_x, V3.smul_y, V3.smul_z]; ring
      have hd' : V3.dot (V3.smul (V3.norm m) u) n = 0 := by
        rw [← he] at hdot; rw [← he]; exact hdot
      rw [hd'] at e
      exact (mul_eq_zero.mp e).resolve_left hpos.ne'
    refine ⟨⟨o, ⟨u, V3.cross n u, n⟩⟩, ?_, rfl, rfl, ?_⟩
    · unfold Frame3.fromPointAndNormal; rw [hm]
      show (V3.unitVector m).bind _ = _
      rw [hu]; rfl
    · have hv : V3.dot (V3.cross n u) (V3.cross n u) = 1 := by
        simp only [V3.dot, V3.cross] at *
        linear_combination (u.x * u.x + u.y * u.y + u.z * u.z) * hn + hu1 - (u.x * n.x + u.y * n.y + u.z * n.z) * hun
      have key := direct_of_uv hu1 hv (by simp only [V3.dot, V3.cross]; ring)
      have e : V3.cross u (V3.cross n u) = n := by
        simp only [V3.dot] at hu1 hun
        ext <;> simp only [V3.cross]
        · linear_combination n.x * hu1 - u.x * hun
        · linear_combination n.y * hu1 - u.y * hun
        · linear_combination n.z * hu1 - u.z * hun
      rw [e] at key; exact key

theorem V3.rotation_dot (p q a : V3 ℝ) (t : ℝ) (ha : V3.dot a a = 1) :
    V3.dot (V3.rotation p ⟨0, 0, 0⟩ a t) (V3.rotation q ⟨0, 0, 0⟩ a t) = V3.dot p q := by
  have h2 := Real.sin_sq_add_cos_sq t
  unfold V3.rotation V3.rotationCS
  generalize Real.cos t = c at *
  generalize Real.sin t = s at *
  obtain ⟨x, y, z⟩ := p
  obtain ⟨x', y', z'⟩ := q
  obtain ⟨i, j, k⟩ := a
  simp only [V3.dot, V3.cross, V3.sub_x, V3.sub_y, V3.sub_z, V3.smul_x, V3.smul_y, V3.smul_z, sub_zero, add_zero] at *
  linear_combination ((x*x'+y*y'+z*z') - (x*i+y*j+z*k)*(x'*i+y'*j+z'*k)) * h2
    + ((1-c)^2 * (x*i+y*j+z*k)*(x'*i+y'*j+z'*k) + s^2 * (x*x'+y*y'+z*z')) * ha

theorem V3.rotation_cross (p q a : V3 ℝ) (t : ℝ) (ha : V3.dot a a = 1) :
    V3.cross (V3.rotation p ⟨0, 0, 0⟩ a t) (V3.rotation q ⟨0, 0, 0⟩ a t)
      = V3.rotation (V3.cross p q) ⟨0, 0, 0⟩ a t := by
  have h2 := Real.sin_sq_add_cos_sq t
  unfold V3.rotation V3.rotationCS
  generalize Real.cos t = c at *
  generalize Real.sin t = s at *
  obtain ⟨x, y, z⟩ := p
  obtain ⟨x', y', z'⟩ := q
  obtain ⟨i, j, k⟩ := a
  simp only [V3.dot] at ha
  ext <;> simp only [V3.dot, V3.cross, V3.sub_x, V3.sub_y, V3.sub_z, V3.smul_x, V3.smul_y, V3.smul_z, sub_zero, add_zero] <;>
    grind

theorem V3.rotation_axis (a : V3 ℝ) (t : ℝ) (ha : V3.dot a a = 1) : V3.rotation a ⟨0, 0, 0⟩ a t = a := by
  unfold V3.rotation V3.rotationCS
  simp only [V3.dot] at ha
  ext <;> simp only [V3.dot, V3.cross, V3.sub_x, V3.sub_y, V3.sub_z, V3.smul_x, V3.smul_y, V3.smul_z, sub_zero, add_zero]
  · linear_combination (a.x * (1 - Real.cos t)) * ha
  · linear_combination (a.y * (1 - Real.cos t)) * ha
  · linear_combination (a.z * (1 - Real.cos t)) * ha

/-- C63: rotating a direct orthonormal basis about a unit axis keeps it direct orthonormal. -/
theorem C63_basis_rotation (b : Basis3 ℝ) (axis : V3 ℝ) (angle : ℝ) (hb : DirectOrthonormal b)
    (ha : V3.dot axis axis = 1) : DirectOrthonormal (b.rotation axis angle) := by
  obtain ⟨h1, h2, h3, h4, h5, h6, h7⟩ := hb
  refine ⟨?_, ?_, ?_, ?_, ?_, ?_, ?_⟩ <;>
    simp only [Basis3.rotation, V3.rotation_cross _ _ _ _ ha, V3.rotation_dot _ _ _ _ ha] <;> assumption

/-- C63: `euler_rotation` keeps a direct orthonormal basis direct orthonormal. -/
theorem C63_euler_rotation (b : Basis3 ℝ) (psi theta phi : ℝ) (hb : DirectOrthonormal b) :
    DirectOrthonormal (b.eulerRotation psi theta phi) := by
  have e1 := C63_basis_rotation b b.w psi hb hb.2.2.1
  have hw : V3.rotation b.w ⟨0, 0, 0⟩ b.w psi = b.w := V3.rotation_axis _ _ hb.2.2.1
  simp only [Basis3.rotation, hw] at e1
  have hu1 := e1.1
  have e2 := C63_basis_rotation _ _ theta e1 hu1
  have hu : V3.rotation (V3.rotation b.u ⟨0, 0, 0⟩ b.w psi) ⟨0, 0, 0⟩ (V3.rotation b.u ⟨0, 0, 0⟩ b.w psi) theta
      = V3.rotation b.u ⟨0, 0, 0⟩ b.w psi := V3.rotation_axis _ _ hu1
  simp only [Basis3.rotation, hu] at e2
  have hw1 := e2.2.2.1
  have e3 := C63_basis_rotation _ _ phi e2 hw1
  have hw2 := V3.rotation_axis _ phi hw1
  simp only at hw2
  simp only [Basis3.rotation, hw2] at e3
  exact e3

example : DirectOrthonormal (⟨⟨3/5, 4/5, 0⟩, ⟨-4/5, 3/5, 0⟩, ⟨0, 0, 1⟩⟩ : Basis3 ℝ) := by
  norm_num [DirectOrthonormal, V3.dot, V3.cross]

/-- C63: `Frame3D.from_point_and_vector` rejects main axes other than X, Y, Z and zero vectors; otherwise
it returns an orthonormal frame at the point in which the chosen main axis is the direction of the vector;
the frame is direct unless the vector is opposite to the main axis (see the counterexample). -/
theorem C63_fromPointAndVector_partial (p vec m : V3 ℝ) :
    (m ∉ [⟨1, 0, 0⟩, ⟨0, 1, 0⟩, ⟨0, 0, 1⟩] → Frame3.fromPointAndVector p vec m = .error .valueError) ∧
    (m ∈ [(⟨1, 0, 0⟩ : V3 ℝ), ⟨0, 1, 0⟩, ⟨0, 0, 1⟩] → vec ≠ ⟨0, 0, 0⟩ →
      ∃ f, Frame3.fromPointAndVector p vec m = .ok f ∧ f.origin = p ∧ Orthonormal3 f.basis ∧
        (∃ k, 0 < k ∧ vec = V3.smul k (if m = ⟨1, 0, 0⟩ then f.basis.u else
          if m = ⟨0, 1, 0⟩ then f.basis.v else f.basis.w)) ∧
        ((¬ ∃ k, 0 < k ∧ vec = V3.smul k (-m)) → DirectOrthonormal f.basis)) := by
  constructor
  · intro h
    simp only [List.mem_cons, List.not_mem_nil, or_false, not_or] at h
    unfold Frame3.fromPointAndVector
    rw [if_pos h]
  · intro hm hv0
    simp only [List.mem_cons, List.not_mem_nil, or_false] at hm
    have hm' : ¬ (m ≠ ⟨1, 0, 0⟩ ∧ m ≠ ⟨0, 1, 0⟩ ∧ m ≠ ⟨0, 0, 1⟩) := by tauto
    have hm1 : V3.dot m m = 1 := by rcases hm with h | h | h <;> subst h <;> norm_num [V3.dot]
    obtain ⟨v, hv⟩ := V3.unitVector_some hv0
    obtain ⟨hpos, hve, hv1⟩ := V3.unitVector_spec hv
    have n10 : (⟨0, 1, 0⟩ : V3 ℝ) ≠ ⟨1, 0, 0⟩ := by intro h; simpa using congrArg V3.x h
    have n20 : (⟨0, 0, 1⟩ : V3 ℝ) ≠ ⟨1, 0, 0⟩ := by intro h; simpa using congrArg V3.x h
    have n21 : (⟨0, 0, 1⟩ : V3 ℝ) ≠ ⟨0, 1, 0⟩ := by intro h; simpa using congrArg V3.y h
    unfold Frame3.fromPointAndVector
    rw [if_neg hm', hv]
    simp only
    have hsel : ∀ (a b c : V3 ℝ), (m = ⟨1, 0, 0⟩ → a = v) → (m = ⟨0, 1, 0⟩ → b = v) → (m = ⟨0, 0, 1⟩ → c = v) →
        ∃ k, 0 < k ∧ vec = V3.smul k (if m = ⟨1, 0, 0⟩ then a else if m = ⟨0, 1, 0⟩ then b else c) := by
      intro a b c ha hb hc
      refine ⟨_, hpos, ?_⟩
      rcases hm with h | h | h
      · rw [if_pos h, ha h]; exact hve
      · rw [if_neg (by rw [h]; exact n10), if_pos h, hb h]; exact hve
      · rw [if_neg (by rw [h]; exact n20), if_neg (by rw [h]; exact n21), hc h]; exact hve
    by_cases c1 : v = m
    · rw [if_pos c1]
      refine ⟨_, rfl, rfl, by norm_num [Orthonormal3, V3.dot], hsel _ _ _ ?_ ?_ ?_, fun _ => by norm_num [DirectOrthonormal, V3.dot, V3.cross]⟩ <;>
      · intro h; rw [c1, h]
    · rw [if_neg c1]
      by_cases c2 : v = -m
      · rw [if_pos c2]
        refine ⟨_, rfl, rfl, ?_, hsel _ _ _ ?_ ?_ ?_, fun h => absurd ⟨_, hpos, c2 ▸ hve⟩ h⟩
        · norm_num [Orthonormal3, V3.dot]
        all_goals intro h; rw [c2, h]
      · rw [if_neg c2]
        have hcross : V3.cross m (v - m) = V3.cross m v := by ext <;> simp [V3.cross] <;> ring
        have lag : V3.dot (V3.cross m v) (V3.cross m v) = 1 - V3.dot m v * V3.dot m v := by
          simp only [V3.dot, V3.cross] at *
          linear_combination (v.x * v.x + v.y * v.y + v.z * v.z) * hm1 + hv1
        have hne : V3.cross m v ≠ ⟨0, 0, 0⟩ := by
          intro h0
          have : V3.dot m v * V3.dot m v = 1 := by
            rw [h0] at lag; simp [V3.dot] at lag ⊢; linarith
          have e2 : V3.dot (V3.smul (V3.dot m v) m - v) (V3.smul (V3.dot m v) m - v) = 0 := by
            have : V3.dot (V3.smul (V3.dot m v) m - v) (V3.smul (V3.dot m v) m - v)
                = V3.dot m v * V3.dot m v * V3.dot m m - 2 * (V3.dot m v * V3.dot m v) + V3.dot v v := by
              generalize hd : V3.dot m v = d
              simp only [V3.dot, V3.sub_x, V3.sub_y, V3.sub_z, V3.smul_x, V3.smul_y, V3.smul_z] at *
              linear_combination -2 * d * hd
            rw [this, hm1, hv1]; linarith
          have e3 : V3.smul (V3.dot m v) m - v = ⟨0, 0, 0⟩ := by
            apply (V3.norm_eq_zero_iff _).mp
            have := V3.norm_sq (V3.smul (V3.dot m v) m - v)
            rw [e2] at this
            exact mul_self_eq_zero.mp this
          have hx := congrArg V3.x e3
          have hy := congrArg V3.y e3
          have hz := congrArg V3.z e3
          simp only [V3.sub_x, V3.sub_y, V3.sub_z, V3.smul_x, V3.smul_y, V3.smul_z] at hx hy hz
          rcases mul_self_eq_one_iff.mp this with h1 | h1 <;> rw [h1] at hx hy hz
          · apply c1; ext <;> linarith
          · apply c2; ext <;> simp <;> linarith
        obtain ⟨a, ha⟩ := V3.unitVector_some hne
        obtain ⟨apos, hae, ha1⟩ := V3.unitVector_spec ha
        rw [hcross, ha]
        simp only
        have nv : V3.norm v = 1 := by nlinarith [V3.norm_sq v, V3.norm_nonneg v]
        have nm : V3.norm m = 1 := by nlinarith [V3.norm_sq m, V3.norm_nonneg m]
        rw [nv, nm, mul_one, div_one]
        have hD : V3.dot m v * V3.dot m v ≤ 1 := by
          have : 0 ≤ V3.dot (V3.cross m v) (V3.cross m v) := by
            rw [← V3.norm_sq]; exact mul_self_nonneg _
          linarith
        have hlo : -1 ≤ V3.dot m v := by nlinarith
        have hhi : V3.dot m v ≤ 1 := by nlinarith
        have hnorm : V3.norm (V3.cross m v) = Real.sqrt (1 - V3.dot m v ^ 2) := by
          rw [← Real.sqrt_mul_self (V3.norm_nonneg (V3.cross m v)), V3.norm_sq, lag, pow_two]
        have hrot : V3.rotation m ⟨0, 0, 0⟩ a (Real.arccos (V3.dot m v)) = v := by
          unfold V3.rotation
          rw [Real.cos_arccos hlo hhi, Real.sin_arccos, ← hnorm]
          have ham : V3.dot m a = 0 := by
            have e' : V3.norm (V3.cross m v) * V3.dot m a = V3.dot m (V3.cross m v) := by
              conv_rhs => rw [hae]
              simp only [V3.dot, V3.smul_x, V3.smul_y, V3.smul_z]; ring
            have e'' : V3.dot m (V3.cross m v) = 0 := by simp only [V3.dot, V3.cross]; ring
            rw [e''] at e'
            exact (mul_eq_zero.mp e').resolve_left apos.ne'
          have hx := congrArg V3.x hae
          have hy := congrArg V3.y hae
          have hz := congrArg V3.z hae
          generalize V3.norm (V3.cross m v) = n at *
          simp only [V3.dot, V3.cross, V3.smul_x, V3.smul_y, V3.smul_z] at *
          ext <;> simp only [V3.rotationCS, V3.dot, V3.cross, V3.sub_x, V3.sub_y, V3.sub_z, V3.smul_x, V3.smul_y, V3.smul_z, sub_zero, add_zero]
          · linear_combination a.x * (1 - (m.x * v.x + m.y * v.y + m.z * v.z)) * ham + v.x * hm1 - m.z * hy + m.y * hz
          · linear_combination a.y * (1 - (m.x * v.x + m.y * v.y + m.z * v.z)) * ham + v.y * hm1 - m.x * hz + m.z * hx
          · linear_combination a.z * (1 - (m.x * v.x + m.y * v.y + m.z * v.z)) * ham + v.z * hm1 - m.y * hx + m.x * hy
        have hdir : DirectOrthonormal (Basis3.rotation ⟨⟨1, 0, 0⟩, ⟨0, 1, 0⟩, ⟨0, 0, 1⟩⟩ a (Real.arccos (V3.dot m v))) :=
          C63_basis_rotation _ _ _ (by norm_num [DirectOrthonormal, V3.dot, V3.cross]) ha1
        refine ⟨_, rfl, rfl, ?_, hsel _ _ _ ?_ ?_ ?_, fun _ => hdir⟩
        · obtain ⟨h1, h2, h3, h4, h5, h6, -⟩ := hdir
          exact ⟨h1, h2, h3, h4, h5, h6⟩
        all_goals
          intro h
          subst h
          exact hrot

/-- C63: for a vector opposite to the main axis, `from_point_and_vector` returns a left-handed frame. -/
theorem C63_fromPointAndVector_counterexample :
    ∃ (vec m : V3 ℝ) (f : Frame3 ℝ), Frame3.fromPointAndVector ⟨0, 0, 0⟩ vec m = .ok f ∧
      ¬ DirectOrthonormal f.basis := by
  have hn : V3.norm (⟨-1, 0, 0⟩ : V3 ℝ) = 1 := by unfold V3.norm; norm_num
  refine ⟨⟨-1, 0, 0⟩, ⟨1, 0, 0⟩, ⟨⟨0, 0, 0⟩, ⟨-⟨1, 0, 0⟩, -⟨0, 1, 0⟩, -⟨0, 0, 1⟩⟩⟩, ?_, ?_⟩
  · unfold Frame3.fromPointAndVector V3.unitVector
    rw [if_neg (by simp), hn, if_neg one_ne_zero]
    simp only [div_one]
    rw [if_neg (by intro h; have := congrArg V3.x h; norm_num at this), if_pos (by ext <;> simp)]
  · rintro ⟨-, -, -, -, -, -, h⟩
    norm_num [V3.dot, V3.cross] at h

end Volmdlr
