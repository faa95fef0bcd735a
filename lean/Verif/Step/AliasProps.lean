import Verif.Step.SurfaceProps

/-!
# Surfaces of a STEP file that share a placement (C147), and the unit of length of the file (C148)
-/

namespace Volmdlr.StepGeo

open Volmdlr.Arc Volmdlr.Shells Volmdlr.Angle

/-! ## Model with shared frames

`object_dict` holds one frame for each `AXIS2_PLACEMENT_3D`; the surfaces keep a reference to it. -/

/-- A surface of the file that refers to a placement; the arguments are in the order of the file. -/
inductive SEnt
  | plane (f : ℕ)
  | cylinder (f : ℕ) (r : ℝ)
  | torus (f : ℕ) (a b : ℝ)
  | cone (f : ℕ) (r a : ℝ)
  | sphere (f : ℕ) (r : ℝ)

/-- A surface of the program: a plane has a frame of its own, the others refer to the frame of the dictionary. -/
inductive SObj
  | plane (f : Frame3 ℝ)
  | cylinder (f : ℕ) (r : ℝ)
  | torus (f : ℕ) (a b : ℝ)
  | cone (f : ℕ) (a : ℝ)
  | sphere (f : ℕ) (r : ℝ)

/-- The frames of the dictionary. -/
abbrev Heap := ℕ → Frame3 ℝ

/-- surfaces.py:1352-1366, 2520-2536, 3158-3176, 4138-4158, 4927-4943: `from_step`; line 4157 changes the frame of the dictionary. -/
noncomputable def readShared (R : Reader) (h : Heap) : SEnt → Except PyErr (Heap × SObj)
  | .plane f => (normalizeFrame (h f)).map fun g : Frame3 ℝ => (h, .plane g)
  | .cylinder f r => .ok (h, .cylinder f (r * R.length))
  | .torus f a b => .ok (h, .torus f (|a| * R.length) (|b| * R.length))
  | .cone f r a =>
    if Real.tan (a * R.angle) = 0 then .error .zeroDivision
    else .ok (Function.update h f ⟨(h f).origin - V3.smul (r * R.length / Real.tan (a * R.angle)) (h f).basis.w, (h f).basis⟩,
      .cone f (a * R.angle))
  | .sphere f r => .ok (h, .sphere f (r * R.length))

/-- step.py:805-812: the surfaces one after the other. -/
noncomputable def readShareds (R : Reader) : Heap → List SEnt → Except PyErr (Heap × List SObj)
  | h, [] => .ok (h, [])
  | h, e :: es =>
    match readShared R h e with
    | .error err => .error err
    | .ok (h1, o) =>
      match readShareds R h1 es with
      | .error err => .error err
      | .ok (h2, os) => .ok (h2, o :: os)

/-- The surface of the user: the attributes with the frame it refers to when all is read. -/
def SObj.surf (h : Heap) : SObj → Surf
  | .plane f => .plane f
  | .cylinder f r => .cylinder (h f) r
  | .torus f a b => .torus (h f) a b
  | .cone f a => .cone (h f) a
  | .sphere f r => .sphere (h f) r

/-! ## Specification -/

/-- The placement an entity refers to. -/
def SEnt.frame : SEnt → ℕ
  | .plane f => f
  | .cylinder f _ => f
  | .torus f _ _ => f
  | .cone f _ _ => f
  | .sphere f _ => f

/-- The radius of a cone at its placement, 0 for the other surfaces. -/
def SEnt.coneRadius : SEnt → ℝ
  | .cone _ r _ => r
  | _ => 0

/-- What an entity of the file means (ISO 10303-42), with the placements of the file: the apex of a cone is at the distance
`radius / tan semi_angle` behind its placement. -/
noncomputable def SEnt.meaning (R : Reader) (h : Heap) : SEnt → Surf
  | .plane f => .plane (h f)
  | .cylinder f r => .cylinder (h f) (r * R.length)
  | .torus f a b => .torus (h f) (|a| * R.length) (|b| * R.length)
  | .cone f r a => .cone ⟨(h f).origin - V3.smul (r * R.length / Real.tan (a * R.angle)) (h f).basis.w, (h f).basis⟩ (a * R.angle)
  | .sphere f r => .sphere (h f) (r * R.length)

/-- The cones are not flat. -/
def SEnt.Sound (R : Reader) : SEnt → Prop
  | .cone _ _ a => Real.tan (a * R.angle) ≠ 0
  | _ => True

/-! ## C147 -/

lemma normalizeFrame_direct {f : Frame3 ℝ} (hf : DirectOrthonormal f.basis) : normalizeFrame f = .ok f := by
  obtain ⟨uu, vv, ww, -⟩ := hf
  simp only [normalizeFrame, unitVector_of_unit uu, unitVector_of_unit vv, unitVector_of_unit ww]

/-- Reading one surface: its meaning, and the only frame that may change is its own one, and only for a cone with a radius. -/
lemma readShared_spec (R : Reader) (h : Heap) (hh : ∀ n, DirectOrthonormal (h n).basis) (e : SEnt) (he : e.Sound R) :
    ∃ h' o, readShared R h e = .ok (h', o) ∧ (∀ n, DirectOrthonormal (h' n).basis) ∧
      (∀ n, (n = e.frame → e.coneRadius = 0) → h' n = h n) ∧ ∀ k : Heap, k e.frame = h' e.frame → o.surf k = e.meaning R h := by
  cases e with
  | plane f => exact ⟨h, .plane (h f), by simp only [readShared, normalizeFrame_direct (hh f), Except.map], hh, fun _ _ => rfl, fun k _ => rfl⟩
  | cylinder f r => exact ⟨h, _, rfl, hh, fun _ _ => rfl, fun k hk => by simp only [SEnt.frame] at hk; simp only [SObj.surf, SEnt.meaning, hk]⟩
  | torus f a b => exact ⟨h, _, rfl, hh, fun _ _ => rfl, fun k hk => by simp only [SEnt.frame] at hk; simp only [SObj.surf, SEnt.meaning, hk]⟩
  | sphere f r => exact ⟨h, _, rfl, hh, fun _ _ => rfl, fun k hk => by simp only [SEnt.frame] at hk; simp only [SObj.surf, SEnt.meaning, hk]⟩
  | cone f r a =>
    refine ⟨_, _, by simp only [readShared]; exact if_neg he, ?_, ?_, ?_⟩
    · intro n
      by_cases hn : n = f
      · subst hn; simp only [Function.update_self]; exact hh n
      · rw [Function.update_of_ne hn]; exact hh n
    · intro n hn
      simp only [SEnt.frame, SEnt.coneRadius] at hn
      by_cases hnf : n = f
      · have hr := hn hnf
        subst hnf
        rw [Function.update_self, hr]
        have : (h n).origin - V3.smul (0 * R.length / Real.tan (a * R.angle)) (h n).basis.w = (h n).origin := by ext <;> simp
        rw [this]
      · rw [Function.update_of_ne hnf]
    · intro k hk
      simp only [SEnt.frame, Function.update_self] at hk
      simp only [SObj.surf, SEnt.meaning, hk]

/-- **C147.**  When a placement that is shared by two surfaces is not the placement of a cone with a radius, every surface is read
with its meaning, for any number of surfaces in any order. -/
theorem C147_shared_partial (R : Reader) (h : Heap) (hh : ∀ n, DirectOrthonormal (h n).basis) (es : List SEnt) (hs : ∀ e ∈ es, e.Sound R)
    (hp : es.Pairwise fun a b => a.frame = b.frame → a.coneRadius = 0 ∧ b.coneRadius = 0) :
    ∃ h' os, readShareds R h es = .ok (h', os) ∧ List.Forall₂ (fun e o => SObj.surf h' o = SEnt.meaning R h e) es os ∧
      ∀ n, (∀ e ∈ es, e.frame = n → e.coneRadius = 0) → h' n = h n := by
  induction es generalizing h with
  | nil => exact ⟨h, [], rfl, .nil, fun _ _ => rfl⟩
  | cons e es ih =>
    obtain ⟨h1, o, r1, d1, k1, m1⟩ := readShared_spec R h hh e (hs e (by simp))
    rw [List.pairwise_cons] at hp
    obtain ⟨h2, os, r2, f2, k2⟩ := ih h1 d1 (fun x hx => hs x (by simp [hx])) hp.2
    refine ⟨h2, o :: os, by simp only [readShareds, r1, r2], .cons ?_ ?_, ?_⟩
    · exact m1 h2 (k2 _ fun x hx hxe => (hp.1 x hx hxe.symm).2)
    · have hm : ∀ x ∈ es, SEnt.meaning R h1 x = SEnt.meaning R h x := by
        intro x hx
        have : h1 x.frame = h x.frame := k1 _ fun hxe => (hp.1 x hx hxe.symm).1
        cases x <;> simp only [SEnt.frame] at this <;> simp only [SEnt.meaning, this]
      clear ih k2 r2 hs hp
      induction f2 with
      | nil => exact .nil
      | cons a b ih => exact .cons (by rw [a]; exact hm _ (by simp)) (ih fun x hx => hm x (by simp [hx]))
    · intro n hn
      rw [k2 n fun x hx => hn x (by simp [hx])]
      exact k1 n fun hne => hn e (by simp) hne.symm

/-- **C147, files of the exporter.**  Cones are written with the radius 0: sharing placements is harmless. -/
theorem C147_apex_cones (R : Reader) (h : Heap) (hh : ∀ n, DirectOrthonormal (h n).basis) (es : List SEnt) (hs : ∀ e ∈ es, e.Sound R)
    (hr : ∀ e ∈ es, e.coneRadius = 0) :
    ∃ h' os, readShareds R h es = .ok (h', os) ∧ List.Forall₂ (fun e o => SObj.surf h' o = SEnt.meaning R h e) es os := by
  obtain ⟨h', os, r, f, -⟩ := C147_shared_partial R h hh es hs (List.pairwise_iff_forall_sublist.mpr fun {a b} hab _ =>
    ⟨hr a (hab.subset (by simp)), hr b (hab.subset (by simp))⟩)
  exact ⟨h', os, r, f⟩

/-- C147 as it should be: any sharing. -/
def C147_full_statement : Prop :=
  ∀ (R : Reader) (h : Heap) (es : List SEnt), (∀ n, DirectOrthonormal (h n).basis) → (∀ e ∈ es, e.Sound R) →
    ∃ h' os, readShareds R h es = .ok (h', os) ∧ List.Forall₂ (fun e o => SObj.surf h' o = SEnt.meaning R h e) es os

/-- **C147, counterexample.**  A cone of radius 1 and semi-angle π/4 and a cylinder at the same placement: the cylinder is moved to
the apex of the cone (and a second cone at this placement would be moved twice). -/
theorem C147_shared_counterexample : ¬ C147_full_statement := by
  intro H
  obtain ⟨h', os, r, f⟩ := H ⟨1, 1, 1, fun _ _ => False⟩ (fun _ => unitCircle3.frame) [.cylinder 1 1, .cone 1 1 (Real.pi / 4)]
    (fun _ => unitCircle3_good.direct) (by
      intro e he
      simp only [List.mem_cons, List.not_mem_nil, or_false] at he
      rcases he with rfl | rfl
      · trivial
      · simp [SEnt.Sound])
  have ht : ¬ Real.tan (Real.pi / 4 * 1) = 0 := by simp
  have hr : readShareds ⟨1, 1, 1, fun _ _ => False⟩ (fun _ => unitCircle3.frame) [.cylinder 1 1, .cone 1 1 (Real.pi / 4)] =
      .ok (Function.update (fun _ => unitCircle3.frame) 1 ⟨unitCircle3.frame.origin -
        V3.smul (1 * 1 / Real.tan (Real.pi / 4 * 1)) unitCircle3.frame.basis.w, unitCircle3.frame.basis⟩,
        [.cylinder 1 (1 * 1), .cone 1 (Real.pi / 4 * 1)]) := by
    simp only [readShareds, readShared]
    rw [if_neg ht]
  rw [hr] at r
  cases r
  cases f with
  | cons a b =>
    simp only [SObj.surf, SEnt.meaning, Function.update_self, Surf.cylinder.injEq] at a
    have := congrArg (fun g : Frame3 ℝ => g.origin.z) a.1
    simp [unitCircle3] at this

/-- Two cylinders and a plane at one placement and a cone at another one meet the conditions. -/
example : [SEnt.cylinder 1 1, .cylinder 1 2, .plane 1, .cone 2 1 (Real.pi / 4)].Pairwise
    (fun a b => a.frame = b.frame → a.coneRadius = 0 ∧ b.coneRadius = 0) := by
  simp [SEnt.frame, SEnt.coneRadius]

/-! ## C148: the unit of length -/

/-- A frame in another unit of length. -/
def scaleFrame (k : ℝ) (f : Frame3 ℝ) : Frame3 ℝ := ⟨V3.smul k f.origin, f.basis⟩

/-- A circle in another unit of length. -/
def scaleCircle (k : ℝ) (c : Circle3) : Circle3 := ⟨scaleFrame k c.frame, k * c.radius⟩

/-- An edge in another unit of length. -/
def scaleEdge (k : ℝ) : Edge → Edge
  | .segment p q s e => .segment (V3.smul k p) (V3.smul k q) (V3.smul k s) (V3.smul k e)
  | .arc c s e => .arc (scaleCircle k c) (V3.smul k s) (V3.smul k e)
  | .fullArc c s => .fullArc (scaleCircle k c) (V3.smul k s)
  | .bspline b => .bspline ⟨b.degree, b.ctrlpts.map (V3.smul k), b.mults, b.knots, b.weights⟩

/-- A surface in another unit of length. -/
def scaleSurf (k : ℝ) : Surf → Surf
  | .plane f => .plane (scaleFrame k f)
  | .cylinder f r => .cylinder (scaleFrame k f) (k * r)
  | .torus f a b => .torus (scaleFrame k f) (k * a) (k * b)
  | .cone f a => .cone (scaleFrame k f) a
  | .sphere f r => .sphere (scaleFrame k f) (k * r)
  | .extrusion e d => .extrusion (scaleEdge k e) d
  | .revolution e p a => .revolution (scaleEdge k e) (V3.smul k p) a
  | .bspline s => .bspline { s with ctrlpts := s.ctrlpts.map (V3.smul k) }

/-- The entities without tolerances: points, directions, placements, curves and surfaces (not edges of curves, loops, faces). -/
def Body.Geometric : Body → Prop
  | .cartesianPoint .. | .direction .. | .vertexPoint .. | .axis1Placement .. | .axis2Placement3d .. | .circle ..
  | .bsplineCurve .. | .plane .. | .cylindricalSurface .. | .toroidalSurface .. | .conicalSurface .. | .sphericalSurface ..
  | .surfaceOfRevolution .. | .bsplineSurface .. => True
  | _ => False

/-- An object in another unit of length; directions have no unit. -/
def scaleVal (k : ℝ) : Val → Val
  | .point p => .point (V3.smul k p)
  | .vec v => .vec v
  | .axis p v => .axis (V3.smul k p) v
  | .frame f => .frame (scaleFrame k f)
  | .line p q => .line (V3.smul k p) (V3.smul k q)
  | .circle c => .circle (scaleCircle k c)
  | .edge e => .edge (e.map (scaleEdge k))
  | .contour l => .contour (l.map (scaleEdge k))
  | .surface s => .surface (scaleSurf k s)
  | .face f => .face ⟨scaleSurf k f.surface, f.outer.map (scaleEdge k), f.inner.map fun l : List Edge => l.map (scaleEdge k)⟩
  | .shell fs => .shell (fs.map fun f : Face =>
      ⟨scaleSurf k f.surface, f.outer.map (scaleEdge k), f.inner.map fun l : List Edge => l.map (scaleEdge k)⟩)

/-- The dictionary in another unit of length. -/
def scaleDict (k : ℝ) (D : Dict) : Dict := fun n => (D n).map (scaleVal k)

lemma getPoint_scale (k : ℝ) (D : Dict) (n : ℕ) : getPoint (scaleDict k D) n = (getPoint D n).map (V3.smul k) := by
  unfold getPoint scaleDict
  rcases D n with _ | v
  · rfl
  · cases v <;> rfl

lemma getVec_scale (k : ℝ) (D : Dict) (n : ℕ) : getVec (scaleDict k D) n = getVec D n := by
  unfold getVec scaleDict
  rcases D n with _ | v
  · rfl
  · cases v <;> rfl

lemma getFrame_scale (k : ℝ) (D : Dict) (n : ℕ) : getFrame (scaleDict k D) n = (getFrame D n).map (scaleFrame k) := by
  unfold getFrame scaleDict
  rcases D n with _ | v
  · rfl
  · cases v <;> rfl

lemma getEdge_scale (k : ℝ) (D : Dict) (n : ℕ) : getEdge (scaleDict k D) n = (getEdge D n).map (Option.map (scaleEdge k)) := by
  unfold getEdge scaleDict
  rcases D n with _ | v
  · rfl
  · cases v <;> rfl

lemma getAll_map {ι α β : Type} {g : ι → Except PyErr α} {g' : ι → Except PyErr β} {F : α → β} (h : ∀ n, g' n = (g n).map F) (l : List ι) :
    getAll g' l = (getAll g l).map (List.map F) := by
  induction l with
  | nil => rfl
  | cons n ns ih =>
    simp only [getAll, h, ih]
    cases g n with
    | error e => rfl
    | ok a => cases getAll g ns <;> rfl

lemma readFrame_scale (k : ℝ) (o w u : V3 ℝ) : readFrame (V3.smul k o) w u = (readFrame o w u).map (scaleFrame k) := by
  unfold readFrame
  cases V3.unitVector (u - V3.smul (V3.dot u w) w) <;> rfl

lemma readCircle_scale (k : ℝ) (f : Frame3 ℝ) (r : ℝ) : readCircle (scaleFrame k f) (k * r) = (readCircle f r).map (scaleCircle k) := by
  unfold readCircle scaleFrame
  simp only
  cases V3.unitVector f.basis.w with
  | none => rfl
  | some n =>
    unfold Frame3.fromPointAndNormal
    simp only [Option.bind_eq_bind]
    cases V3.deterministicNormalVector n with
    | none => rfl
    | some m =>
      simp only [Option.bind_some]
      cases V3.unitVector m <;> rfl

lemma smul_sub_smul (k a : ℝ) (p v : V3 ℝ) : V3.smul k p - V3.smul (k * a) v = V3.smul k (p - V3.smul a v) := by
  ext <;> simp <;> ring

lemma headD_map (k : ℝ) (l : List (V3 ℝ)) : (l.map (V3.smul k)).headD ⟨0, 0, 0⟩ = V3.smul k (l.headD ⟨0, 0, 0⟩) := by
  cases l with
  | nil => ext <;> simp
  | cons a l => rfl

lemma getLastD_map (k : ℝ) (l : List (V3 ℝ)) : (l.map (V3.smul k)).getLastD ⟨0, 0, 0⟩ = V3.smul k (l.getLastD ⟨0, 0, 0⟩) := by
  rw [List.getLastD_eq_getLast?, List.getLastD_eq_getLast?, List.getLast?_map]
  cases l.getLast? with
  | none => ext <;> simp
  | some a => rfl

/-- **C148, one entity.**  Reading an entity in a unit of length `k` times longer, from objects `k` times larger, gives an object `k`
times larger. -/
theorem C148_entity (R : Reader) (k : ℝ) (D : Dict) (b : Body) (hb : b.Geometric) :
    readEnt { R with length := k * R.length } (scaleDict k D) b = (readEnt R D b).map (scaleVal k) := by
  cases b <;> simp only [Body.Geometric] at hb <;> simp only [readEnt]
  case cartesianPoint x y z =>
    simp only [Except.map, scaleVal]
    congr 2
    ext <;> simp <;> ring
  case direction => rfl
  case vertexPoint p => rw [getPoint_scale]; cases getPoint D p <;> rfl
  case axis1Placement p v =>
    rw [getPoint_scale]
    cases getPoint D p with
    | error e => rfl
    | ok p => simp only [Except.map, Except.bind, getVec_scale]; cases getVec D v <;> rfl
  case axis2Placement3d o w u =>
    rw [getPoint_scale]
    cases getPoint D o with
    | error e => rfl
    | ok o =>
      simp only [Except.map, Except.bind, getVec_scale]
      cases getVec D w with
      | error e => rfl
      | ok w =>
        simp only
        cases getVec D u with
        | error e => rfl
        | ok u =>
          simp only [readFrame_scale]
          cases readFrame o w u <;> rfl
  case circle f r =>
    rw [getFrame_scale]
    cases getFrame D f with
    | error e => rfl
    | ok f =>
      simp only [Except.map, Except.bind]
      rw [show r * (k * R.length) = k * (r * R.length) by ring, readCircle_scale]
      cases readCircle f (r * R.length) <;> rfl
  case bsplineCurve d ps _ _ m kn =>
    rw [getAll_map (getPoint_scale k D)]
    cases getAll (getPoint D) ps with
    | error e => rfl
    | ok l =>
      simp only [Except.map, scaleVal, Option.map]
      congr 3
      unfold readBsplineCurve
      rw [List.length_map]
      by_cases h2 : l.length = 2 ∧ d = 1
      · rw [if_pos h2, if_pos h2]
        simp only [scaleEdge, headD_map, getLastD_map]
      · rw [if_neg h2, if_neg h2]
        rfl
  case plane f =>
    rw [getFrame_scale]
    cases getFrame D f with
    | error e => rfl
    | ok f =>
      simp only [Except.map, Except.bind, normalizeFrame, scaleFrame]
      cases V3.unitVector f.basis.u <;> cases V3.unitVector f.basis.v <;> cases V3.unitVector f.basis.w <;> rfl
  case cylindricalSurface f r =>
    rw [getFrame_scale]
    cases getFrame D f with
    | error e => rfl
    | ok f => simp only [Except.map, scaleVal, scaleSurf]; congr 3; ring
  case toroidalSurface f a b =>
    rw [getFrame_scale]
    cases getFrame D f with
    | error e => rfl
    | ok f => simp only [Except.map, scaleVal, scaleSurf]; congr 3 <;> ring
  case conicalSurface f r a =>
    rw [getFrame_scale]
    cases getFrame D f with
    | error e => rfl
    | ok f =>
      simp only [Except.map, Except.bind, readCone]
      by_cases h : Real.tan (a * R.angle) = 0
      · rw [if_pos h, if_pos h]
      · rw [if_neg h, if_neg h]
        simp only [scaleVal, scaleSurf, scaleFrame]
        rw [show r * (k * R.length) / Real.tan (a * R.angle) = k * (r * R.length / Real.tan (a * R.angle)) by ring, smul_sub_smul]
  case sphericalSurface f r =>
    rw [getFrame_scale]
    cases getFrame D f with
    | error e => rfl
    | ok f => simp only [Except.map, scaleVal, scaleSurf]; congr 3; ring
  case surfaceOfRevolution e a =>
    rw [getEdge_scale]
    cases getEdge D e with
    | error e => rfl
    | ok e =>
      simp only [Except.map, Except.bind]
      cases e with
      | none => rfl
      | some e =>
        simp only [Option.map, scaleDict]
        rcases D a with _ | v
        · rfl
        · cases v <;> try rfl
          case axis p v =>
            simp only [scaleVal, readRevolution]
            cases V3.unitVector v <;> rfl
  case bsplineSurface du dv rows mu mv ku kv =>
    rw [getAll_map (fun row => getAll_map (getPoint_scale k D) row)]
    cases getAll (fun row => getAll (getPoint D) row) rows with
    | error e => rfl
    | ok l =>
      simp only [Except.map, Except.bind, readBsplineSurface, List.getLast?_map]
      cases l.getLast? with
      | none => rfl
      | some last =>
        simp only [Option.map, List.length_map]
        by_cases h : last.length = 0
        · rw [if_pos h, if_pos h]
        · rw [if_neg h, if_neg h]
          simp only [scaleVal, scaleSurf]
          rw [← List.map_flatten, List.length_map]

/-- **C148.**  Reading the points, placements, curves and surfaces of a file in a unit of length `k` times longer gives the same objects
`k` times larger, for any number of entities. -/
theorem C148_units (R : Reader) (k : ℝ) (D : Dict) (es : List Ent) (hes : ∀ e ∈ es, e.body.Geometric) :
    readAll { R with length := k * R.length } (scaleDict k D) es = (readAll R D es).map (scaleDict k) := by
  induction es generalizing D with
  | nil => rfl
  | cons e es ih =>
    simp only [readAll]
    rw [C148_entity R k D e.body (hes e (by simp))]
    cases readEnt R D e.body with
    | error err => rfl
    | ok v =>
      simp only [Except.map]
      have : Function.update (scaleDict k D) e.id (some (scaleVal k v)) = scaleDict k (Function.update D e.id (some v)) := by
        funext n
        unfold scaleDict
        by_cases hn : n = e.id
        · subst hn; simp
        · simp [Function.update_of_ne hn]
      rw [this, ih _ fun x hx => hes x (by simp [hx])]
      cases readAll R (Function.update D e.id (some v)) es <;> rfl

/-- The lines of a circle in the file: all of them are geometric. -/
example : ∀ e ∈ [(⟨1, .cartesianPoint 0 0 5⟩ : Ent), ⟨2, .direction 0 0 1⟩, ⟨3, .direction 1 0 0⟩, ⟨4, .axis2Placement3d 1 2 3⟩,
    ⟨5, .circle 4 7⟩, ⟨6, .conicalSurface 4 1 (1 / 2)⟩], e.body.Geometric := by
  simp [Body.Geometric]

end Volmdlr.StepGeo
