import Verif.Step.GeoModel
import Verif.Arc.Arc3Props
import Verif.Lists.Props

/-!
# The geometry of a STEP file is what was written: points, frames, lines (C143)
-/

namespace Volmdlr.StepGeo

open Volmdlr.Arc Volmdlr.Shells Volmdlr.Angle

/-! ## Specification -/

/-- Reading the text `w` written after the identifier `c` succeeds whatever was read before, leaves the objects read before as they
are, and puts at the last identifier of `w` an object with the property `P`. -/
def Reads (R : Reader) (c : ℕ) (w : W) (P : Val → Prop) : Prop :=
  c < w.2 ∧ ∀ D : Dict, ∃ D', readAll R D w.1 = .ok D' ∧ (∀ n ≤ c, D' n = D n) ∧ ∃ v, D' w.2 = some v ∧ P v

/-- The same circle with the same orientation: same centre, same normal, same radius (the frames may be turned about the normal). -/
def SameCircle (c c' : Circle3) : Prop :=
  c'.frame.origin = c.frame.origin ∧ c'.frame.basis.w = c.frame.basis.w ∧ c'.radius = c.radius ∧ c'.Good

/-- Two points give the same line with the same direction as two other points. -/
def SameLine (p q p' q' : V3 ℝ) : Prop := p' = p ∧ ∃ k, 0 < k ∧ q' - p' = V3.smul k (q - p)

/-- The second edge is the first one; a B-spline curve of degree 1 with two control points becomes the segment between them. -/
def SameEdge : Edge → Edge → Prop
  | .segment p q s e, .segment p' q' s' e' => s' = s ∧ e' = e ∧ SameLine p q p' q'
  | .arc k s e, .arc k' s' e' => SameCircle k k' ∧ s' = s ∧ e' = e
  | .fullArc k s, .fullArc k' s' => SameCircle k k' ∧ s' = s
  | .bspline b, .bspline b' => b' = b
  | .bspline b, .segment p' q' s' e' => b.degree = 1 ∧ b.ctrlpts = [s', e'] ∧ p' = s' ∧ q' = e'
  | _, _ => False

/-- The edges that can be in a file: a segment has two different ends and a line; an arc is on its circle and its ends are more than
`1e-7` apart; a B-spline curve has no weights, goes from one point to another one and has its knots from 0 to 1. -/
def Edge.Sound : Edge → Prop
  | .segment p q s e => p ≠ q ∧ s ≠ e
  | .arc k s e => k.Good ∧ (∃ t, s = k.at t) ∧ (∃ t, e = k.at t) ∧ 1 / 10 ^ 7 < V3.pointDistance s e
  | .fullArc k s => k.Good ∧ ∃ t, s = k.at t
  | .bspline b => b.weights = none ∧ b.ctrlpts ≠ [] ∧ b.knots.headD 0 = 0 ∧ b.knots.getLastD 0 = 1 ∧ ¬ bsplinePeriodic b

/-- Each edge ends where the next one starts and the last one ends where the first one starts, up to the tolerance; two edges that
make a contour are not the same edge. -/
def Ordered (twin : Edge → Edge → Prop) (l : List Edge) : Prop :=
  l ≠ [] ∧ (∀ e ∈ l, e.Sound) ∧
    ∀ a b m, l = a :: b :: m → chained l ∧ isClose3 (l.getLastD a).fin a.start (1 / 10 ^ 6) ∧
      (m = [] → ∀ a' b', SameEdge a a' → SameEdge b b' → ¬ twin a' b')

/-! ## Running the reader -/

lemma readAll_append (R : Reader) {a b : List Ent} {D D1 D2 : Dict} (h1 : readAll R D a = .ok D1) (h2 : readAll R D1 b = .ok D2) :
    readAll R D (a ++ b) = .ok D2 := by
  induction a generalizing D with
  | nil => simp only [readAll] at h1; cases h1; exact h2
  | cons e es ih =>
    simp only [readAll, List.cons_append] at *
    cases h : readEnt R D e.body with
    | error err => rw [h] at h1; cases h1
    | ok v => rw [h] at h1; exact ih h1

lemma readAll_one (R : Reader) {n : ℕ} {body : Body} {D : Dict} {v : Val} (h : readEnt R D body = .ok v) :
    readAll R D [⟨n, body⟩] = .ok (Function.update D n (some v)) := by
  simp only [readAll, h]

/-- One more line after a text. -/
lemma Reads.step {R : Reader} {c : ℕ} {D D1 : Dict} {a : List Ent} {n : ℕ} {body : Body} {v : Val}
    (h1 : readAll R D a = .ok D1) (hk : ∀ m ≤ c, D1 m = D m) (hn : c < n) (h2 : readEnt R D1 body = .ok v) :
    ∃ D', readAll R D (a ++ [⟨n, body⟩]) = .ok D' ∧ (∀ m ≤ c, D' m = D m) ∧ D' n = some v ∧ ∀ m, m ≠ n → D' m = D1 m := by
  refine ⟨_, readAll_append R h1 (readAll_one R h2), ?_, by simp, ?_⟩
  · intro m hm
    rw [Function.update_of_ne (by omega)]
    exact hk m hm
  · intro m hm
    rw [Function.update_of_ne hm]

lemma getAll_congr {ι α : Type} {g g' : ι → Except PyErr α} {l : List ι} (h : ∀ n ∈ l, g n = g' n) : getAll g l = getAll g' l := by
  induction l with
  | nil => rfl
  | cons n ns ih =>
    simp only [getAll]
    rw [h n (by simp), ih fun m hm => h m (by simp [hm])]

lemma getAll_cons {ι α : Type} {g : ι → Except PyErr α} {n : ι} {ns : List ι} {a : α} {l : List α} (h1 : g n = .ok a)
    (h2 : getAll g ns = .ok l) : getAll g (n :: ns) = .ok (a :: l) := by
  simp only [getAll, h1, h2]

/-! ## Points, vectors, frames, lines -/

lemma unitVector_of_unit {u : V3 ℝ} (h : V3.dot u u = 1) : V3.unitVector u = some u := by
  have hn : V3.norm u = 1 := by
    have := V3.norm_sq u; rw [h] at this
    nlinarith [V3.norm_nonneg u]
  unfold V3.unitVector; rw [hn]; simp

lemma norm_unit {u : V3 ℝ} (h : V3.dot u u = 1) : V3.norm u = 1 := by
  have := V3.norm_sq u; rw [h] at this
  nlinarith [V3.norm_nonneg u]

lemma npRound_one : npRound 6 (1 : ℝ) = 1 := by
  unfold npRound
  have : pyRound ((1 : ℝ) * 10 ^ 6) = 1000000 := by
    apply pyRound_unique
    norm_num
  rw [this]; norm_num

/-- **C143, points.**  A point and the vertex of a point are read as the point. -/
theorem C143_point (twin : Edge → Edge → Prop) (p : V3 ℝ) (vertex : Bool) (c : ℕ) :
    Reads (exportReader twin) c (pointToStep p vertex c) (· = .point p) := by
  have hp : (⟨1000 * p.x * (1 / 1000), 1000 * p.y * (1 / 1000), 1000 * p.z * (1 / 1000)⟩ : V3 ℝ) = p := by
    ext <;> simp only <;> ring
  cases vertex with
  | false =>
    refine ⟨by simp [pointToStep], fun D => ?_⟩
    refine ⟨_, readAll_one _ (v := .point p) ?_, ?_, _, by simp [pointToStep], rfl⟩
    · simp only [readEnt, exportReader, hp]
    · intro n hn; rw [Function.update_of_ne (by omega)]
  | true =>
    refine ⟨by simp [pointToStep], fun D => ?_⟩
    refine ⟨Function.update (Function.update D (c + 1) (some (.point p))) (c + 1 + 1) (some (.point p)), ?_, ?_, _, by simp [pointToStep], rfl⟩
    · simp only [pointToStep, if_true, readAll, readEnt, exportReader, hp]
      simp [getPoint, Except.map]
    · intro n hn; rw [Function.update_of_ne (by omega), Function.update_of_ne (by omega)]

/-- **C143, vertices.**  The identifier returned for a vertex is that of the last record written, which is a
`VERTEX_POINT` referring to the `CARTESIAN_POINT` record written before it. -/
theorem C143_vertex (p : V3 ℝ) (c : ℕ) : ∃ m x y z,
    (pointToStep p true c).1 = [⟨m, .cartesianPoint x y z⟩, ⟨(pointToStep p true c).2, .vertexPoint m⟩] ∧
    m ≠ (pointToStep p true c).2 :=
  ⟨c + 1, _, _, _, rfl, by simp [pointToStep]⟩

/-- **C143, directions.**  A direction is read as itself. -/
theorem C143_direction (twin : Edge → Edge → Prop) (v : V3 ℝ) (c : ℕ) :
    Reads (exportReader twin) c (vectorToStep v false c) (· = .vec v) := by
  refine ⟨by simp [vectorToStep], fun D => ?_⟩
  refine ⟨_, readAll_one _ (v := .vec v) ?_, ?_, _, by simp [vectorToStep], rfl⟩
  · simp only [readEnt]
  · intro n hn; rw [Function.update_of_ne (by omega)]

/-- **C143, vectors.**  A vector of length 1 is read as the vector of one millimetre in the same direction (the magnitude written is
taken for millimetres); missing: other vectors, see the counterexample. -/
theorem C143_vector_partial (twin : Edge → Edge → Prop) (v : V3 ℝ) (hv : V3.dot v v = 1) (c : ℕ) :
    Reads (exportReader twin) c (vectorToStep v true c) (· = .vec (V3.smul (1 / 1000) v)) := by
  refine ⟨by simp [vectorToStep], fun D => ?_⟩
  refine ⟨Function.update (Function.update D (c + 1) (some (.vec v))) (c + 1 + 1) (some (.vec (V3.smul (1 / 1000) v))), ?_, ?_, _,
    by simp [vectorToStep], rfl⟩
  · simp only [vectorToStep, if_true, readAll, readEnt, exportReader, norm_unit hv, npRound_one]
    simp [getVec, Except.map]
  · intro n hn; rw [Function.update_of_ne (by omega), Function.update_of_ne (by omega)]

/-- C143 as it should be for vectors: the vector that was written, up to the unit of the file. -/
def C143_vector_full_statement : Prop :=
  ∀ (twin : Edge → Edge → Prop) (v : V3 ℝ) (c : ℕ), v ≠ ⟨0, 0, 0⟩ →
    Reads (exportReader twin) c (vectorToStep v true c) (· = .vec (V3.smul (1 / 1000) v))

/-- **C143, counterexample.**  The vector `(2, 0, 0)` is written with the direction `(2, 0, 0)` and the magnitude 2 and read as
`(4, 0, 0)` (millimetres). -/
theorem C143_vector_counterexample : ¬ C143_vector_full_statement := by
  intro h
  obtain ⟨-, h⟩ := h (fun _ _ => False) ⟨2, 0, 0⟩ 0 (by intro h; have := congrArg V3.x h; norm_num at this)
  obtain ⟨D', hD, -, v, hv, rfl⟩ := h fun _ => none
  have hn : V3.norm (⟨2, 0, 0⟩ : V3 ℝ) = 2 := by
    unfold V3.norm
    rw [show (2 : ℝ) * 2 + 0 * 0 + 0 * 0 = 2 ^ 2 by norm_num]
    exact Real.sqrt_sq (by norm_num)
  have hr : npRound 6 (2 : ℝ) = 2 := by
    unfold npRound
    have : pyRound ((2 : ℝ) * 10 ^ 6) = 2000000 := by
      apply pyRound_unique
      norm_num
    rw [this]; norm_num
  simp only [vectorToStep, if_true, readAll, readEnt, exportReader, hn, hr] at hD
  simp only [getVec, Function.update_self, Except.map] at hD
  cases hD
  simp only [vectorToStep, if_true, Function.update_self, Option.some.injEq, Val.vec.injEq] at hv
  have := congrArg V3.x hv
  norm_num at this

/-- **C143, frames.**  A direct orthonormal frame is read as itself. -/
theorem C143_frame_partial (twin : Edge → Edge → Prop) (f : Frame3 ℝ) (hf : DirectOrthonormal f.basis) (c : ℕ) :
    Reads (exportReader twin) c (frameToStep f c) (· = .frame f) := by
  obtain ⟨ho, Ho⟩ := C143_point twin f.origin false c
  obtain ⟨hw, Hw⟩ := C143_direction twin f.basis.w (pointToStep f.origin false c).2
  obtain ⟨hu, Hu⟩ := C143_direction twin f.basis.u (vectorToStep f.basis.w false (pointToStep f.origin false c).2).2
  refine ⟨by simp only [frameToStep]; omega, fun D => ?_⟩
  obtain ⟨D1, r1, k1, v1, e1, rfl⟩ := Ho D
  obtain ⟨D2, r2, k2, v2, e2, rfl⟩ := Hw D1
  obtain ⟨D3, r3, k3, v3, e3, rfl⟩ := Hu D2
  have g1 : D3 (pointToStep f.origin false c).2 = some (.point f.origin) := by rw [k3 _ (by omega), k2 _ le_rfl, e1]
  have g2 : D3 (vectorToStep f.basis.w false (pointToStep f.origin false c).2).2 = some (.vec f.basis.w) := by rw [k3 _ le_rfl, e2]
  have hread : readFrame f.origin f.basis.w f.basis.u = .ok f := by
    obtain ⟨h1, -, -⟩ := direct_cross hf
    obtain ⟨uu, vv, ww, uv, uw, vw, -⟩ := hf
    have : f.basis.u - V3.smul (V3.dot f.basis.u f.basis.w) f.basis.w = f.basis.u := by
      rw [uw]; ext <;> simp
    unfold readFrame
    rw [this, unitVector_of_unit uu]
    simp only [h1]
  obtain ⟨D', s1, s2, s3, -⟩ := Reads.step (c := c) (n := (vectorToStep f.basis.u false (vectorToStep f.basis.w false (pointToStep f.origin false c).2).2).2 + 1)
    (body := .axis2Placement3d (pointToStep f.origin false c).2 (vectorToStep f.basis.w false (pointToStep f.origin false c).2).2
      (vectorToStep f.basis.u false (vectorToStep f.basis.w false (pointToStep f.origin false c).2).2).2) (v := .frame f)
    (readAll_append _ r1 (readAll_append _ r2 r3))
    (fun m hm => by rw [k3 m (by omega), k2 m (by omega), k1 m hm]) (by omega)
    (by simp only [readEnt, getPoint, getVec, g1, g2, e3, Except.bind, hread, Except.map])
  refine ⟨D', ?_, s2, .frame f, s3, rfl⟩
  simp only [frameToStep]
  exact s1

example : DirectOrthonormal (⟨⟨3 / 5, 4 / 5, 0⟩, ⟨-4 / 5, 3 / 5, 0⟩, ⟨0, 0, 1⟩⟩ : Basis3 ℝ) := by
  norm_num [DirectOrthonormal, V3.dot, V3.cross]

/-- C143 as it should be for frames: any orthonormal frame, also a left-handed one. -/
def C143_frame_full_statement : Prop :=
  ∀ (twin : Edge → Edge → Prop) (f : Frame3 ℝ) (c : ℕ), Orthonormal3 f.basis → Reads (exportReader twin) c (frameToStep f c) (· = .frame f)

/-- **C143, counterexample.**  The second axis of a left-handed frame is read with the other sign. -/
theorem C143_frame_counterexample : ¬ C143_frame_full_statement := by
  intro h
  set f : Frame3 ℝ := ⟨⟨0, 0, 0⟩, ⟨⟨1, 0, 0⟩, ⟨0, -1, 0⟩, ⟨0, 0, 1⟩⟩⟩ with hf
  set g : Frame3 ℝ := ⟨⟨0, 0, 0⟩, ⟨⟨1, 0, 0⟩, ⟨0, 1, 0⟩, ⟨0, 0, 1⟩⟩⟩ with hg
  obtain ⟨-, h1⟩ := h (fun _ _ => False) f 0 (by rw [hf]; norm_num [Orthonormal3, V3.dot])
  obtain ⟨-, h2⟩ := C143_frame_partial (fun _ _ => False) g (by rw [hg]; norm_num [DirectOrthonormal, V3.dot, V3.cross]) 0
  obtain ⟨D1, a1, -, v1, b1, rfl⟩ := h1 fun _ => none
  obtain ⟨D2, a2, -, v2, b2, rfl⟩ := h2 fun _ => none
  have e : frameToStep f 0 = frameToStep g 0 := rfl
  rw [e] at a1 b1
  rw [a1] at a2
  cases a2
  rw [b1] at b2
  have := congrArg (fun v : Option Val => match v with | some (.frame f) => f.basis.v.y | _ => 0) b2
  rw [hf, hg] at this
  norm_num at this

/-- **C143, lines.**  A line is read as the same line with the same direction. -/
theorem C143_line (twin : Edge → Edge → Prop) (p q : V3 ℝ) (h : p ≠ q) (c : ℕ) :
    ∃ w, lineToStep p q c = .ok w ∧ Reads (exportReader twin) c w (fun v => ∃ p' q', v = .line p' q' ∧ SameLine p q p' q') := by
  obtain ⟨d, hd⟩ := V3.unitVector_some (u := q - p) (by
    intro h0
    apply h
    have hx := congrArg V3.x h0
    have hy := congrArg V3.y h0
    have hz := congrArg V3.z h0
    simp only [V3.sub_x, V3.sub_y, V3.sub_z] at hx hy hz
    ext <;> linarith)
  obtain ⟨hpos, he, hd1⟩ := V3.unitVector_spec hd
  refine ⟨_, by simp only [lineToStep, hd]; rfl, ?_⟩
  obtain ⟨ho, Ho⟩ := C143_point twin p false c
  obtain ⟨hw, Hw⟩ := C143_vector_partial twin d hd1 (pointToStep p false c).2
  refine ⟨by simp only; omega, fun D => ?_⟩
  obtain ⟨D1, r1, k1, v1, e1, rfl⟩ := Ho D
  obtain ⟨D2, r2, k2, v2, e2, rfl⟩ := Hw D1
  have g1 : D2 (pointToStep p false c).2 = some (.point p) := by rw [k2 _ le_rfl, e1]
  obtain ⟨D', s1, s2, s3, -⟩ := Reads.step (c := c) (n := (vectorToStep d true (pointToStep p false c).2).2 + 1)
    (body := .line (pointToStep p false c).2 (vectorToStep d true (pointToStep p false c).2).2) (v := .line p (p + V3.smul (1 / 1000) d))
    (readAll_append _ r1 r2) (fun m hm => by rw [k2 m (by omega), k1 m hm]) (by omega)
    (by simp only [readEnt, getPoint, getVec, g1, e2, Except.bind, Except.map])
  refine ⟨D', s1, s2, _, s3, _, _, rfl, rfl, 1 / 1000 / V3.norm (q - p), by positivity, ?_⟩
  generalize V3.norm (q - p) = r at *
  rw [he]
  ext <;> simp only [V3.sub_x, V3.sub_y, V3.sub_z, V3.add_x, V3.add_y, V3.add_z, V3.smul_x, V3.smul_y, V3.smul_z] <;> field_simp <;> ring

example : (⟨0, 0, 0⟩ : V3 ℝ) ≠ ⟨1, 2, 3⟩ := by intro h; have := congrArg V3.x h; norm_num at this

end Volmdlr.StepGeo
