import Verif.Scene.Model
import Verif.Frame.Props
import Mathlib.Data.List.Forall2
import Mathlib.Tactic.FieldSimp

/-!
# Assemblies and motions of volume models (C113, C114)
-/

namespace Volmdlr.Scene
set_option linter.unusedSectionVars false
variable {K : Type*} [Field K] [LinearOrder K] [IsStrictOrderedRing K]

/-! ## Specification -/

/-- The shell `s'` is the shell `s` moved: each of its points has in `g` the coordinates that the point of `s` has in `f`. -/
def Moved (f g : Frame3 K) (s s' : Prim K) : Prop :=
  ∃ ps ps', s = .shell ps ∧ s' = .shell ps' ∧ List.Forall₂ (fun q q' : V3 K => ∃ x, IsCoord f x q ∧ IsCoord g x q') ps ps'

/-- The volume spanned by the vectors of a frame is not zero. -/
def Regular (f : Frame3 K) : Prop := V3.dot f.basis.u (V3.cross f.basis.v f.basis.w) ≠ 0

mutual
/-- An object built by the constructors, whose assemblies have regular frames with the origin at the point (0, 0, 0). -/
def Prim.Good : Prim K → Prop
  | .compound l => GoodAll l
  | .assembly cs ps f l => f.origin = ⟨0, 0, 0⟩ ∧ Regular f ∧ GoodAll cs ∧ Prim.newAssembly cs ps f = .ok (.assembly cs ps f l)
  | .point _ => True
  | .frame _ => True
  | .curve _ => True
  | .shell _ => True
/-- All of them. -/
def GoodAll : List (Prim K) → Prop
  | [] => True
  | p :: l => p.Good ∧ GoodAll l
end

/-- `s` is a shell inside `p`, at any depth of compounds and assemblies. -/
inductive Inside (s : Prim K) : Prim K → Prop
  | self (ps : List (V3 K)) (h : s = .shell ps) : Inside s s
  | compound (l : List (Prim K)) (p : Prim K) (hp : p ∈ l) (h : Inside s p) : Inside s (.compound l)
  | assembly (cs : List (Prim K)) (ps : List (Frame3 K)) (f : Frame3 K) (l : List (Prim K)) (p : Prim K) (hp : p ∈ l) (h : Inside s p) :
      Inside s (.assembly cs ps f l)

/-! ## Algebra of frames -/

/-- The image of a frame. -/
def comp (g f : Frame3 K) : Frame3 K :=
  ⟨g.basis.transfer.cMulVec f.origin + g.origin, ⟨g.basis.transfer.cMulVec f.basis.u, g.basis.transfer.cMulVec f.basis.v,
    g.basis.transfer.cMulVec f.basis.w⟩⟩

/-- The image of a point. -/
def app (g : Frame3 K) (p : V3 K) : V3 K := g.basis.transfer.cMulVec p + g.origin

theorem mapFrame_old (g f : Frame3 K) : mapFrame g .old f = .ok (comp g f) := rfl
theorem mapPoint_old (g : Frame3 K) (p : V3 K) : mapPoint g .old p = .ok (app g p) := rfl

theorem app_coord (g : Frame3 K) (p q : V3 K) : IsCoord g p q ↔ q = app g p := by
  unfold IsCoord app
  constructor
  · intro h; rw [h]; ext <;> simp [M33.cMulVec, Basis3.transfer] <;> ring
  · intro h; rw [h]; ext <;> simp [M33.cMulVec, Basis3.transfer] <;> ring

theorem app_comp (g f : Frame3 K) (p : V3 K) : app (comp g f) p = app g (app f p) := by
  ext <;> simp [app, comp, M33.cMulVec, Basis3.transfer] <;> ring

theorem comp_assoc (g f e : Frame3 K) : comp (comp g f) e = comp g (comp f e) := by
  ext <;> simp [comp, M33.cMulVec, Basis3.transfer] <;> ring

theorem comp_oxyz (f : Frame3 K) : comp oxyz f = f := by
  ext <;> simp [comp, oxyz, M33.cMulVec, Basis3.transfer]

theorem app_oxyz (p : V3 K) : app oxyz p = p := by
  ext <;> simp [app, oxyz, M33.cMulVec, Basis3.transfer]

theorem mapM_pure {α β : Type*} (f : α → β) (l : List α) : l.mapM (fun a => (Except.ok (f a) : Except PyErr β)) = .ok (l.map f) := by
  induction l with
  | nil => rfl
  | cons a l ih => rw [List.mapM_cons, ih]; rfl

theorem mapM_frames (g : Frame3 K) (ps : List (Frame3 K)) : ps.mapM (mapFrame g .old) = .ok (ps.map (comp g)) := mapM_pure (comp g) ps
theorem mapM_points (g : Frame3 K) (ps : List (V3 K)) : ps.mapM (mapPoint g .old) = .ok (ps.map (app g)) := mapM_pure (app g) ps

/-- The frame that sends the vectors of the first frame to those of the second, with the second's origin. -/
theorem placement_spec {f : Frame3 K} (hf : Regular f) (p : Frame3 K) : ∃ n, placementFrame f p = .ok n ∧ n.origin = p.origin ∧
    n.basis.transfer.cMulVec f.basis.u = p.basis.u ∧ n.basis.transfer.cMulVec f.basis.v = p.basis.v ∧
    n.basis.transfer.cMulVec f.basis.w = p.basis.w ∧ ∀ g, placementFrame f (comp g p) = .ok (comp g n) := by
  unfold Regular at hf
  unfold placementFrame transferMatrix
  simp only [if_neg hf]
  refine ⟨_, rfl, rfl, ?_, ?_, ?_, ?_⟩
  · generalize hd : V3.dot f.basis.u (V3.cross f.basis.v f.basis.w) = d at hf
    simp only [V3.dot, V3.cross] at hd
    ext <;> simp only [M33.cMulVec, Basis3.transfer, V3.add_x, V3.add_y, V3.add_z, V3.smul_x, V3.smul_y, V3.smul_z, V3.cross] <;> field_simp <;> rw [← hd] <;> ring
  · generalize hd : V3.dot f.basis.u (V3.cross f.basis.v f.basis.w) = d at hf
    simp only [V3.dot, V3.cross] at hd
    ext <;> simp only [M33.cMulVec, Basis3.transfer, V3.add_x, V3.add_y, V3.add_z, V3.smul_x, V3.smul_y, V3.smul_z, V3.cross] <;> field_simp <;> rw [← hd] <;> ring
  · generalize hd : V3.dot f.basis.u (V3.cross f.basis.v f.basis.w) = d at hf
    simp only [V3.dot, V3.cross] at hd
    ext <;> simp only [M33.cMulVec, Basis3.transfer, V3.add_x, V3.add_y, V3.add_z, V3.smul_x, V3.smul_y, V3.smul_z, V3.cross] <;> field_simp <;> rw [← hd] <;> ring
  · intro g
    refine congrArg Except.ok ?_
    generalize V3.dot f.basis.u (V3.cross f.basis.v f.basis.w) = d at hf
    ext <;> simp only [comp, M33.cMulVec, Basis3.transfer, V3.add_x, V3.add_y, V3.add_z, V3.smul_x, V3.smul_y, V3.smul_z] <;> ring

/-- A linear map is known on a basis. -/
theorem linear_ext {f : Frame3 K} (hf : Regular f) (m n : M33 K) (hu : m.cMulVec f.basis.u = n.cMulVec f.basis.u)
    (hv : m.cMulVec f.basis.v = n.cMulVec f.basis.v) (hw : m.cMulVec f.basis.w = n.cMulVec f.basis.w) : m = n := by
  obtain ⟨o, ⟨⟨ux, uy, uz⟩, ⟨vx, vy, vz⟩, ⟨wx, wy, wz⟩⟩⟩ := f
  unfold Regular at hf
  generalize hd : (V3.dot (⟨ux, uy, uz⟩ : V3 K) (V3.cross ⟨vx, vy, vz⟩ ⟨wx, wy, wz⟩)) = d at hf
  simp only [V3.dot, V3.cross] at hd
  have h1 := congrArg V3.x hu
  have h2 := congrArg V3.y hu
  have h3 := congrArg V3.z hu
  have h4 := congrArg V3.x hv
  have h5 := congrArg V3.y hv
  have h6 := congrArg V3.z hv
  have h7 := congrArg V3.x hw
  have h8 := congrArg V3.y hw
  have h9 := congrArg V3.z hw
  simp only [M33.cMulVec] at h1 h2 h3 h4 h5 h6 h7 h8 h9
  have key : ∀ a b : K, a * d = b * d → a = b := fun a b h => mul_right_cancel₀ hf h
  ext <;> apply key <;> rw [← hd]
  · linear_combination (vy * wz - vz * wy) * h1 + (wy * uz - wz * uy) * h4 + (uy * vz - uz * vy) * h7
  · linear_combination (vz * wx - vx * wz) * h1 + (wz * ux - wx * uz) * h4 + (uz * vx - ux * vz) * h7
  · linear_combination (vx * wy - vy * wx) * h1 + (wx * uy - wy * ux) * h4 + (ux * vy - uy * vx) * h7
  · linear_combination (vy * wz - vz * wy) * h2 + (wy * uz - wz * uy) * h5 + (uy * vz - uz * vy) * h8
  · linear_combination (vz * wx - vx * wz) * h2 + (wz * ux - wx * uz) * h5 + (uz * vx - ux * vz) * h8
  · linear_combination (vx * wy - vy * wx) * h2 + (wx * uy - wy * ux) * h5 + (ux * vy - uy * vx) * h8
  · linear_combination (vy * wz - vz * wy) * h3 + (wy * uz - wz * uy) * h6 + (uy * vz - uz * vy) * h9
  · linear_combination (vz * wx - vx * wz) * h3 + (wz * ux - wx * uz) * h6 + (uz * vx - ux * vz) * h9
  · linear_combination (vx * wy - vy * wx) * h3 + (wx * uy - wy * ux) * h6 + (ux * vy - uy * vx) * h9

theorem placement_self {f : Frame3 K} (hf : Regular f) (h0 : f.origin = ⟨0, 0, 0⟩) : placementFrame f f = .ok oxyz := by
  obtain ⟨n, hn, h1, h2, h3, h4, -⟩ := placement_spec hf f
  rw [hn]
  have e : n.basis.transfer = M33.one := linear_ext hf _ _ (by rw [h2, M33.cMulVec_one]) (by rw [h3, M33.cMulVec_one]) (by rw [h4, M33.cMulVec_one])
  refine congrArg Except.ok ?_
  have e1 := congrArg M33.m11 e
  have e2 := congrArg M33.m12 e
  have e3 := congrArg M33.m13 e
  have e4 := congrArg M33.m21 e
  have e5 := congrArg M33.m22 e
  have e6 := congrArg M33.m23 e
  have e7 := congrArg M33.m31 e
  have e8 := congrArg M33.m32 e
  have e9 := congrArg M33.m33 e
  simp only [Basis3.transfer, M33.one] at e1 e2 e3 e4 e5 e6 e7 e8 e9
  rw [h0] at h1
  ext <;> simp only [oxyz, h1, e1, e2, e3, e4, e5, e6, e7, e8, e9]

/-! ## Objects -/

/-- core.py:153-179 on one component. -/
def place (frame : Frame3 K) (c : Prim K) (p : Frame3 K) : Except PyErr (Prim K) :=
  if frame = p then .ok c
  else if c.isFrame frame then .ok (.frame p)
  else match placementFrame frame p with
    | .error e => .error e
    | .ok g => if g = oxyz then .ok c else Prim.frameMapping g .old c

theorem placeAll_cons (f : Frame3 K) (c : Prim K) (cs : List (Prim K)) (p : Frame3 K) (ps : List (Frame3 K)) :
    placeAll f (c :: cs) (p :: ps) = match place f c p, placeAll f cs ps with
      | .ok q, .ok r => .ok (q :: r)
      | .error e, _ => .error e
      | .ok _, .error e => .error e := by
  rw [placeAll]; rfl

mutual
/-- Mapping by the identity. -/
theorem map_id : ∀ c : Prim K, c.Good → c.frameMapping oxyz .old = .ok c
  | .point p, _ => by rw [Prim.frameMapping, mapPoint_old, app_oxyz]; rfl
  | .frame f, _ => by rw [Prim.frameMapping, mapFrame_old, comp_oxyz]; rfl
  | .curve ps, _ => by
    rw [Prim.frameMapping, mapM_points, show app (oxyz : Frame3 K) = id from funext app_oxyz, List.map_id]; rfl
  | .shell ps, _ => by
    rw [Prim.frameMapping, mapM_points, show app (oxyz : Frame3 K) = id from funext app_oxyz, List.map_id]; rfl
  | .compound l, h => by rw [Prim.frameMapping, mapAll_id l h]; rfl
  | .assembly cs ps f l, h => by
    rw [Prim.frameMapping, mapM_frames, show comp (oxyz : Frame3 K) = id from funext comp_oxyz, List.map_id]
    exact h.2.2.2
theorem mapAll_id : ∀ l : List (Prim K), GoodAll l → mapAll oxyz .old l = .ok l
  | [], _ => rfl
  | p :: l, h => by rw [mapAll, map_id p h.1, mapAll_id l h.2]
end

/-- Placing a component is mapping it, for frames at the origin. -/
theorem place_eq {f : Frame3 K} (h0 : f.origin = ⟨0, 0, 0⟩) (hf : Regular f) (c : Prim K) (hc : c.Good) (p n : Frame3 K)
    (hn : placementFrame f p = .ok n) : place f c p = c.frameMapping n .old := by
  unfold place
  by_cases h1 : f = p
  · rw [if_pos h1]
    rw [← h1, placement_self hf h0] at hn
    rw [← (Except.ok.inj hn), map_id c hc]
  rw [if_neg h1]
  by_cases h2 : c.isFrame f = true
  · rw [if_pos h2]
    cases c with
    | frame e =>
      have he : e = f := of_decide_eq_true h2
      subst he
      obtain ⟨m, hm, e1, e2, e3, e4, -⟩ := placement_spec hf p
      rw [hn] at hm
      rw [← Except.ok.inj hm] at e1 e2 e3 e4
      rw [Prim.frameMapping, mapFrame_old]
      refine congrArg Except.ok (congrArg Prim.frame ?_)
      unfold comp
      rw [e2, e3, e4, h0, e1]
      ext <;> simp [M33.cMulVec]
    | point _ => exact absurd h2 (by simp [Prim.isFrame])
    | curve _ => exact absurd h2 (by simp [Prim.isFrame])
    | shell _ => exact absurd h2 (by simp [Prim.isFrame])
    | compound _ => exact absurd h2 (by simp [Prim.isFrame])
    | assembly _ _ _ _ => exact absurd h2 (by simp [Prim.isFrame])
  rw [if_neg h2, hn]
  by_cases h3 : n = oxyz
  · simp only [if_pos h3]; rw [h3, map_id c hc]
  · simp only [if_neg h3]

mutual
/-- Mapping succeeds. -/
theorem map_total : ∀ (c : Prim K), c.Good → ∀ g : Frame3 K, ∃ c', c.frameMapping g .old = .ok c'
  | .point p, _, g => ⟨_, rfl⟩
  | .frame f, _, g => ⟨_, rfl⟩
  | .curve ps, _, g => ⟨.curve (ps.map (app g)), by rw [Prim.frameMapping, mapM_points]; rfl⟩
  | .shell ps, _, g => ⟨.shell (ps.map (app g)), by rw [Prim.frameMapping, mapM_points]; rfl⟩
  | .compound l, h, g => by
    obtain ⟨l', hl⟩ := mapAll_total l h g
    exact ⟨.compound l', by rw [Prim.frameMapping, hl]; rfl⟩
  | .assembly cs ps f l, h, g => by
    obtain ⟨l', hl⟩ := placeAll_total f h.1 h.2.1 cs h.2.2.1 (ps.map (comp g))
    exact ⟨.assembly cs (ps.map (comp g)) f l', by rw [Prim.frameMapping, mapM_frames]; simp only [hl]; rfl⟩
theorem mapAll_total : ∀ (l : List (Prim K)), GoodAll l → ∀ g : Frame3 K, ∃ l', mapAll g .old l = .ok l'
  | [], _, _ => ⟨[], rfl⟩
  | p :: l, h, g => by
    obtain ⟨q, hq⟩ := map_total p h.1 g
    obtain ⟨r, hr⟩ := mapAll_total l h.2 g
    exact ⟨q :: r, by rw [mapAll, hq, hr]⟩
theorem placeAll_total (f : Frame3 K) (h0 : f.origin = ⟨0, 0, 0⟩) (hf : Regular f) :
    ∀ (cs : List (Prim K)), GoodAll cs → ∀ ps : List (Frame3 K), ∃ l, placeAll f cs ps = .ok l
  | [], _, ps => ⟨[], by cases ps <;> rfl⟩
  | c :: cs, h, [] => ⟨[], rfl⟩
  | c :: cs, h, p :: ps => by
    obtain ⟨n, hn, -⟩ := placement_spec hf p
    obtain ⟨q, hq⟩ := map_total c h.1 n
    obtain ⟨r, hr⟩ := placeAll_total f h0 hf cs h.2 ps
    exact ⟨q :: r, by rw [placeAll_cons, place_eq h0 hf c h.1 p n hn, hq, hr]⟩
end

mutual
/-- The image is again such an object, and mapping twice is mapping by the image of the frame. -/
theorem map_comp : ∀ (c : Prim K), c.Good → ∀ (f : Frame3 K) (c' : Prim K), c.frameMapping f .old = .ok c' →
    c'.Good ∧ ∀ g, c'.frameMapping g .old = c.frameMapping (comp g f) .old
  | .point p, _, f, c', h => by
    rw [Prim.frameMapping, mapPoint_old] at h
    rw [← Except.ok.inj h]
    refine ⟨trivial, fun g => ?_⟩
    rw [Prim.frameMapping, Prim.frameMapping, mapPoint_old, mapPoint_old, app_comp]
  | .frame e, _, f, c', h => by
    rw [Prim.frameMapping, mapFrame_old] at h
    rw [← Except.ok.inj h]
    refine ⟨trivial, fun g => ?_⟩
    rw [Prim.frameMapping, Prim.frameMapping, mapFrame_old, mapFrame_old, comp_assoc]
  | .curve ps, _, f, c', h => by
    rw [Prim.frameMapping, mapM_points] at h
    rw [← Except.ok.inj h]
    refine ⟨trivial, fun g => ?_⟩
    rw [Prim.frameMapping, Prim.frameMapping, mapM_points, mapM_points, List.map_map]
    rw [show app g ∘ app f = app (comp g f) from funext fun p => (app_comp g f p).symm]
  | .shell ps, _, f, c', h => by
    rw [Prim.frameMapping, mapM_points] at h
    rw [← Except.ok.inj h]
    refine ⟨trivial, fun g => ?_⟩
    rw [Prim.frameMapping, Prim.frameMapping, mapM_points, mapM_points, List.map_map]
    rw [show app g ∘ app f = app (comp g f) from funext fun p => (app_comp g f p).symm]
  | .compound l, hl, f, c', h => by
    obtain ⟨l', e⟩ := mapAll_total l hl f
    rw [Prim.frameMapping, e] at h
    rw [← Except.ok.inj h]
    obtain ⟨h1, h2⟩ := mapAll_comp l hl f l' e
    refine ⟨h1, fun g => ?_⟩
    rw [Prim.frameMapping, Prim.frameMapping, h2]
  | .assembly cs ps e l, hl, f, c', h => by
    obtain ⟨l', hp⟩ := placeAll_total e hl.1 hl.2.1 cs hl.2.2.1 (ps.map (comp f))
    rw [Prim.frameMapping, mapM_frames] at h
    simp only [hp] at h
    rw [← Except.ok.inj h]
    refine ⟨⟨hl.1, hl.2.1, hl.2.2.1, ?_⟩, fun g => ?_⟩
    · unfold Prim.newAssembly; rw [hp]; rfl
    · rw [Prim.frameMapping, Prim.frameMapping, mapM_frames, mapM_frames, List.map_map]
      rw [show comp g ∘ comp f = comp (comp g f) from funext fun p => (comp_assoc g f p).symm]
theorem mapAll_comp : ∀ (l : List (Prim K)), GoodAll l → ∀ (f : Frame3 K) (l' : List (Prim K)), mapAll f .old l = .ok l' →
    GoodAll l' ∧ ∀ g, mapAll g .old l' = mapAll (comp g f) .old l
  | [], _, f, l', h => by
    rw [mapAll] at h; rw [← Except.ok.inj h]
    exact ⟨trivial, fun g => by rw [mapAll, mapAll]⟩
  | p :: l, hl, f, l', h => by
    obtain ⟨q, hq⟩ := map_total p hl.1 f
    obtain ⟨r, hr⟩ := mapAll_total l hl.2 f
    rw [mapAll, hq, hr] at h
    rw [← Except.ok.inj h]
    obtain ⟨a1, a2⟩ := map_comp p hl.1 f q hq
    obtain ⟨b1, b2⟩ := mapAll_comp l hl.2 f r hr
    exact ⟨⟨a1, b1⟩, fun g => by rw [mapAll, mapAll, a2, b2]⟩
end

/-- Moving the positions is moving the placed components. -/
theorem placeAll_comp (f : Frame3 K) (h0 : f.origin = ⟨0, 0, 0⟩) (hf : Regular f) (g : Frame3 K) :
    ∀ (cs : List (Prim K)), GoodAll cs → ∀ (ps : List (Frame3 K)) (l : List (Prim K)), placeAll f cs ps = .ok l →
      GoodAll l ∧ placeAll f cs (ps.map (comp g)) = mapAll g .old l
  | [], _, ps, l, h => by
    have : placeAll f ([] : List (Prim K)) ps = .ok [] := by cases ps <;> rfl
    rw [this] at h
    rw [← Except.ok.inj h]
    exact ⟨trivial, by rw [mapAll]; cases ps <;> rfl⟩
  | c :: cs, hc, [], l, h => by
    have : placeAll f (c :: cs) [] = .ok [] := rfl
    rw [this] at h
    rw [← Except.ok.inj h]
    exact ⟨trivial, rfl⟩
  | c :: cs, hc, p :: ps, l, h => by
    obtain ⟨n, hn, -, -, -, -, hg⟩ := placement_spec hf p
    obtain ⟨q, hq⟩ := map_total c hc.1 n
    obtain ⟨r, hr⟩ := placeAll_total f h0 hf cs hc.2 ps
    rw [placeAll_cons, place_eq h0 hf c hc.1 p n hn, hq, hr] at h
    rw [← Except.ok.inj h]
    obtain ⟨a1, a2⟩ := map_comp c hc.1 n q hq
    obtain ⟨b1, b2⟩ := placeAll_comp f h0 hf g cs hc.2 ps r hr
    refine ⟨⟨a1, b1⟩, ?_⟩
    rw [List.map_cons, placeAll_cons, place_eq h0 hf c hc.1 (comp g p) (comp g n) (hg g), ← a2 g, b2, mapAll]
    cases Prim.frameMapping g .old q <;> cases mapAll g .old r <;> rfl

theorem forall2_append {α β : Type*} {R : α → β → Prop} {a : List α} {b : List β} {c : List α} {d : List β}
    (h1 : List.Forall₂ R a b) (h2 : List.Forall₂ R c d) : List.Forall₂ R (a ++ c) (b ++ d) := List.rel_append h1 h2

mutual
/-- The shells of the image are the images of the shells. -/
theorem map_shells : ∀ (c : Prim K), c.Good → ∀ (g : Frame3 K) (c' : Prim K), c.frameMapping g .old = .ok c' →
    List.Forall₂ (fun s s' => ∃ ps, s = Prim.shell ps ∧ s' = .shell (ps.map (app g))) c.unpack c'.unpack
  | .point p, _, g, c', h => by
    rw [Prim.frameMapping] at h; rw [← Except.ok.inj h, Prim.unpack, Prim.unpack]; exact .nil
  | .frame e, _, g, c', h => by
    rw [Prim.frameMapping] at h; rw [← Except.ok.inj h, Prim.unpack, Prim.unpack]; exact .nil
  | .curve ps, _, g, c', h => by
    rw [Prim.frameMapping, mapM_points] at h; rw [← Except.ok.inj h, Prim.unpack, Prim.unpack]; exact .nil
  | .shell ps, _, g, c', h => by
    rw [Prim.frameMapping, mapM_points] at h; rw [← Except.ok.inj h, Prim.unpack, Prim.unpack]
    exact .cons ⟨ps, rfl, rfl⟩ .nil
  | .compound l, hl, g, c', h => by
    obtain ⟨l', e⟩ := mapAll_total l hl g
    rw [Prim.frameMapping, e] at h
    rw [← Except.ok.inj h, Prim.unpack, Prim.unpack]
    exact mapAll_shells l hl g l' e
  | .assembly cs ps e l, hl, g, c', h => by
    have hp : placeAll e cs ps = .ok l := by
      have := hl.2.2.2
      obtain ⟨l0, hl0⟩ := placeAll_total e hl.1 hl.2.1 cs hl.2.2.1 ps
      unfold Prim.newAssembly at this
      rw [hl0] at this ⊢
      have := Except.ok.inj this
      injection this with _ _ _ h4
      rw [h4]
    obtain ⟨hg, hm⟩ := placeAll_comp e hl.1 hl.2.1 g cs hl.2.2.1 ps l hp
    obtain ⟨l', e'⟩ := mapAll_total l hg g
    rw [Prim.frameMapping, mapM_frames] at h
    simp only [hm, e'] at h
    rw [← Except.ok.inj h, Prim.unpack, Prim.unpack]
    exact mapAll_shells l hg g l' e'
theorem mapAll_shells : ∀ (l : List (Prim K)), GoodAll l → ∀ (g : Frame3 K) (l' : List (Prim K)), mapAll g .old l = .ok l' →
    List.Forall₂ (fun s s' => ∃ ps, s = Prim.shell ps ∧ s' = .shell (ps.map (app g))) (unpackAll l) (unpackAll l')
  | [], _, g, l', h => by rw [mapAll] at h; rw [← Except.ok.inj h, unpackAll]; exact .nil
  | p :: l, hl, g, l', h => by
    obtain ⟨q, hq⟩ := map_total p hl.1 g
    obtain ⟨r, hr⟩ := mapAll_total l hl.2 g
    rw [mapAll, hq, hr] at h
    rw [← Except.ok.inj h, unpackAll, unpackAll]
    exact forall2_append (map_shells p hl.1 g q hq) (mapAll_shells l hl.2 g r hr)
end

mutual
theorem unpack_iff (s : Prim K) : ∀ p : Prim K, s ∈ p.unpack ↔ Inside s p
  | .point p => by rw [Prim.unpack]; exact ⟨fun h => absurd h (by simp), fun h => by cases h with | self ps h => cases h⟩
  | .frame p => by rw [Prim.unpack]; exact ⟨fun h => absurd h (by simp), fun h => by cases h with | self ps h => cases h⟩
  | .curve p => by rw [Prim.unpack]; exact ⟨fun h => absurd h (by simp), fun h => by cases h with | self ps h => cases h⟩
  | .shell ps => by
    rw [Prim.unpack, List.mem_singleton]
    constructor
    · intro h; rw [← h]; exact .self ps h
    · intro h
      cases h with
      | self ps' h => rfl
  | .compound l => by
    rw [Prim.unpack, unpackAll_iff s l]
    constructor
    · rintro ⟨p, hp, h⟩; exact .compound l p hp h
    · intro h
      cases h with
      | self ps h => cases h
      | compound _ p hp h => exact ⟨p, hp, h⟩
  | .assembly cs ps f l => by
    rw [Prim.unpack, unpackAll_iff s l]
    constructor
    · rintro ⟨p, hp, h⟩; exact .assembly cs ps f l p hp h
    · intro h
      cases h with
      | self ps h => cases h
      | assembly _ _ _ _ p hp h => exact ⟨p, hp, h⟩
theorem unpackAll_iff (s : Prim K) : ∀ l : List (Prim K), s ∈ unpackAll l ↔ ∃ p ∈ l, Inside s p
  | [] => by rw [unpackAll]; simp
  | p :: l => by
    rw [unpackAll, List.mem_append, unpack_iff s p, unpackAll_iff s l]
    simp
end


/-! ## C113: placement of the components of an assembly -/

theorem coord_exists {f : Frame3 K} (hf : Regular f) (p : V3 K) : ∃ x, IsCoord f x p := by
  unfold Regular at hf
  generalize hd : V3.dot f.basis.u (V3.cross f.basis.v f.basis.w) = d at hf
  refine ⟨⟨V3.dot (p - f.origin) (V3.cross f.basis.v f.basis.w) / d, V3.dot (p - f.origin) (V3.cross f.basis.w f.basis.u) / d,
    V3.dot (p - f.origin) (V3.cross f.basis.u f.basis.v) / d⟩, ?_⟩
  unfold IsCoord
  simp only [V3.dot, V3.cross] at hd
  ext <;> simp only [V3.dot, V3.cross, V3.add_x, V3.add_y, V3.add_z, V3.smul_x, V3.smul_y, V3.smul_z, V3.sub_x, V3.sub_y, V3.sub_z] <;> field_simp <;>
    rw [← hd] <;> ring

/-- The placed point, for frames at the origin. -/
theorem placed_point {f : Frame3 K} (h0 : f.origin = ⟨0, 0, 0⟩) (hf : Regular f) {p n : Frame3 K} (hn : placementFrame f p = .ok n) (q : V3 K) :
    ∃ x, IsCoord f x q ∧ IsCoord p x (app n q) := by
  obtain ⟨m, hm, e1, e2, e3, e4, -⟩ := placement_spec hf p
  rw [hn] at hm
  rw [← Except.ok.inj hm] at e1 e2 e3 e4
  obtain ⟨x, hx⟩ := coord_exists hf q
  refine ⟨x, hx, ?_⟩
  unfold IsCoord at hx ⊢
  unfold app
  rw [hx, h0, ← e1, ← e2, ← e3, ← e4]
  ext <;> simp only [M33.cMulVec, V3.add_x, V3.add_y, V3.add_z, V3.smul_x, V3.smul_y, V3.smul_z] <;> ring

/-- The full claim: in an assembly, the shells of each component are placed so that a point with some coordinates in the frame of the assembly gets the same
coordinates in the position of the component. -/
def C113_full_statement (K : Type) [Field K] [LinearOrder K] : Prop :=
  ∀ (cs : List (Prim K)) (ps : List (Frame3 K)) (f : Frame3 K), Regular f → (∀ p ∈ ps, Regular p) → GoodAll cs →
    ∃ l, Prim.newAssembly cs ps f = .ok (.assembly cs ps f l) ∧ l.length = min cs.length ps.length ∧
      ∀ (i : ℕ) (c c' : Prim K) (p : Frame3 K), cs[i]? = some c → ps[i]? = some p → l[i]? = some c' →
        List.Forall₂ (Moved f p) c.unpack c'.unpack

/-- **C113** placement, for an assembly whose frame has its origin at (0, 0, 0): every component is placed as said in `C113_full_statement`.  What is missing:
other origins (see the counterexample). -/
theorem C113_placement_partial (cs : List (Prim K)) (ps : List (Frame3 K)) (f : Frame3 K) (h0 : f.origin = ⟨0, 0, 0⟩) (hf : Regular f) (hc : GoodAll cs) :
    ∃ l, Prim.newAssembly cs ps f = .ok (.assembly cs ps f l) ∧ l.length = min cs.length ps.length ∧
      ∀ (i : ℕ) (c c' : Prim K) (p : Frame3 K), cs[i]? = some c → ps[i]? = some p → l[i]? = some c' →
        List.Forall₂ (Moved f p) c.unpack c'.unpack := by
  suffices ∀ (cs : List (Prim K)), GoodAll cs → ∀ (ps : List (Frame3 K)), ∃ l, placeAll f cs ps = .ok l ∧ l.length = min cs.length ps.length ∧
      ∀ (i : ℕ) (c c' : Prim K) (p : Frame3 K), cs[i]? = some c → ps[i]? = some p → l[i]? = some c' →
        List.Forall₂ (Moved f p) c.unpack c'.unpack by
    obtain ⟨l, h1, h2⟩ := this cs hc ps
    exact ⟨l, by unfold Prim.newAssembly; rw [h1]; rfl, h2⟩
  intro cs
  induction cs with
  | nil => intro _ ps; exact ⟨[], by cases ps <;> rfl, by simp, fun i c c' p h => by simp at h⟩
  | cons c cs ih =>
    intro hc ps
    cases ps with
    | nil => exact ⟨[], rfl, by simp, fun i c c' p _ h => by simp at h⟩
    | cons p ps =>
      obtain ⟨n, hn, -⟩ := placement_spec hf p
      obtain ⟨q, hq⟩ := map_total c hc.1 n
      obtain ⟨r, hr, h1, h2⟩ := ih hc.2 ps
      refine ⟨q :: r, by rw [placeAll_cons, place_eq h0 hf c hc.1 p n hn, hq, hr], by simp [h1], ?_⟩
      intro i d d' e he hp hd
      cases i with
      | zero =>
        simp only [List.getElem?_cons_zero, Option.some.injEq] at he hp hd
        subst he hp hd
        refine (map_shells c hc.1 n q hq).imp ?_
        rintro s s' ⟨pts, rfl, rfl⟩
        refine ⟨pts, _, rfl, rfl, ?_⟩
        rw [List.forall₂_map_right_iff]
        exact List.forall₂_same.2 fun x _ => placed_point h0 hf hn x
      | succ i =>
        simp only [List.getElem?_cons_succ] at he hp hd
        exact h2 i d d' e he hp hd

/-- **C113** it is a rigid motion: when the frame and the position are orthonormal, distances between points are kept. -/
theorem C113_rigid (f p : Frame3 K) (hf : Orthonormal3 f.basis) (hp : Orthonormal3 p.basis) (x y a b a' b' : V3 K)
    (ha : IsCoord f x a) (hb : IsCoord f y b) (ha' : IsCoord p x a') (hb' : IsCoord p y b') : V3.sqNorm (a' - b') = V3.sqNorm (a - b) := by
  have key : ∀ (g : Frame3 K), Orthonormal3 g.basis → ∀ a b : V3 K, IsCoord g x a → IsCoord g y b → V3.sqNorm (a - b) = V3.sqNorm (x - y) := by
    intro g hg a b ha hb
    rw [ha, hb]
    obtain ⟨h1, h2, h3, h4, h5, h6⟩ := hg
    simp only [V3.dot] at h1 h2 h3 h4 h5 h6
    simp only [V3.sqNorm, V3.sub_x, V3.sub_y, V3.sub_z, V3.add_x, V3.add_y, V3.add_z, V3.smul_x, V3.smul_y, V3.smul_z]
    linear_combination (x.x - y.x)^2 * h1 + (x.y - y.y)^2 * h2 + (x.z - y.z)^2 * h3 + 2 * (x.x - y.x) * (x.y - y.y) * h4 +
      2 * (x.x - y.x) * (x.z - y.z) * h5 + 2 * (x.y - y.y) * (x.z - y.z) * h6
  rw [key f hf a b ha hb, key p hp a' b' ha' hb']

instance (f : Frame3 K) : Decidable (Regular f) := by unfold Regular; infer_instance
instance (b : Basis3 K) : Decidable (Orthonormal3 b) := by unfold Orthonormal3; infer_instance
instance (f : Frame3 K) (x p : V3 K) : Decidable (IsCoord f x p) := by unfold IsCoord; infer_instance

/-- The frame with the usual directions and another origin. -/
def shifted : Frame3 ℚ := ⟨⟨1, 0, 0⟩, ⟨⟨1, 0, 0⟩, ⟨0, 1, 0⟩, ⟨0, 0, 1⟩⟩⟩
/-- A quarter turn about the third axis, and a translation. -/
def turned : Frame3 ℚ := ⟨⟨5, 0, 0⟩, ⟨⟨0, 1, 0⟩, ⟨-1, 0, 0⟩, ⟨0, 0, 1⟩⟩⟩

/-- **C113** the origin of the frame of the assembly is forgotten: the point at the origin of the assembly's frame should be placed at the origin of the
position; it is not. -/
theorem C113_counterexample : ¬ C113_full_statement ℚ := by
  intro h
  obtain ⟨l, h1, h2, h3⟩ := h [.shell [⟨1, 0, 0⟩]] [turned] shifted (by decide +kernel) (by intro p hp; rw [List.mem_singleton.1 hp]; decide +kernel) ⟨trivial, trivial⟩
  have e : Prim.newAssembly [.shell [⟨1, 0, 0⟩]] [turned] shifted =
      .ok (.assembly [.shell [⟨1, 0, 0⟩]] [turned] shifted [.shell [⟨5, 1, 0⟩]]) := by
    have h1 : placementFrame shifted turned = .ok ⟨⟨5, 0, 0⟩, ⟨⟨0, 1, 0⟩, ⟨-1, 0, 0⟩, ⟨0, 0, 1⟩⟩⟩ := by decide +kernel
    have h2 : placeAll shifted [.shell [⟨1, 0, 0⟩]] [turned] = .ok [.shell [⟨5, 1, 0⟩]] := by
      rw [placeAll_cons]
      unfold place
      rw [if_neg (by decide +kernel), h1]
      simp only [Prim.isFrame]
      rw [if_neg (by decide +kernel), Prim.frameMapping, mapM_points]
      have : app (⟨⟨5, 0, 0⟩, ⟨⟨0, 1, 0⟩, ⟨-1, 0, 0⟩, ⟨0, 0, 1⟩⟩⟩ : Frame3 ℚ) ⟨1, 0, 0⟩ = ⟨5, 1, 0⟩ := by decide +kernel
      simp only [List.map_cons, List.map_nil, this]
      rfl
    unfold Prim.newAssembly
    rw [h2]; rfl
  rw [e] at h1
  have hl : l = [.shell [⟨5, 1, 0⟩]] := by
    have := Except.ok.inj h1
    injection this with _ _ _ h4
    exact h4.symm
  subst hl
  have := h3 0 (.shell [⟨1, 0, 0⟩]) (.shell [⟨5, 1, 0⟩]) turned rfl rfl rfl
  rw [Prim.unpack, Prim.unpack] at this
  cases this with
  | cons hm _ =>
    obtain ⟨ps, ps', e1, e2, hh⟩ := hm
    injection e1 with e1
    injection e2 with e2
    subst e1 e2
    cases hh with
    | cons hx _ =>
      obtain ⟨x, hx1, hx2⟩ := hx
      have a1 := congrArg V3.x hx1
      have a2 := congrArg V3.y hx1
      have b1 := congrArg V3.x hx2
      have b2 := congrArg V3.y hx2
      simp [shifted, turned, V3.smul] at a1 a2 b1 b2
      rw [a1] at b2
      norm_num at b2

/-- An assembly inside an assembly. -/
def nested : Prim ℚ := .assembly [.shell [⟨1, 0, 0⟩, ⟨0, 2, 0⟩]] [turned] oxyz [.shell [⟨5, 1, 0⟩, ⟨3, 0, 0⟩]]

theorem nested_good : nested.Good := by
  refine ⟨rfl, by decide +kernel, ⟨trivial, trivial⟩, ?_⟩
  have h1 : placementFrame (oxyz : Frame3 ℚ) turned = .ok turned := by decide +kernel
  unfold Prim.newAssembly
  rw [placeAll_cons]
  unfold place
  rw [if_neg (by decide +kernel), h1]
  simp only [Prim.isFrame]
  rw [if_neg (by decide +kernel), Prim.frameMapping, mapM_points]
  have : [(⟨1, 0, 0⟩ : V3 ℚ), ⟨0, 2, 0⟩].map (app turned) = [⟨5, 1, 0⟩, ⟨3, 0, 0⟩] := by decide +kernel
  rw [this]
  rfl

/-- An assembly of an assembly and a shell, at two positions. -/
example : ∃ l, Prim.newAssembly [nested, .shell [⟨0, 0, 1⟩]] [turned, shifted] oxyz = .ok (.assembly [nested, .shell [⟨0, 0, 1⟩]] [turned, shifted] oxyz l) ∧
    l.length = 2 := by
  obtain ⟨l, h1, h2, -⟩ := C113_placement_partial [nested, .shell [⟨0, 0, 1⟩]] [turned, shifted] (oxyz : Frame3 ℚ) rfl (by decide +kernel)
    ⟨nested_good, trivial, trivial⟩
  exact ⟨l, h1, h2⟩

example : V3.sqNorm ((⟨5, 1, 0⟩ : V3 ℚ) - ⟨3, 0, 0⟩) = V3.sqNorm ((⟨1, 0, 0⟩ : V3 ℚ) - ⟨0, 2, 0⟩) :=
  C113_rigid oxyz turned (by decide +kernel) (by decide +kernel) ⟨1, 0, 0⟩ ⟨0, 2, 0⟩ _ _ _ _ (by decide +kernel) (by decide +kernel) (by decide +kernel)
    (by decide +kernel)

/-! ## C114: motions of volume models -/

/-- **C114** `get_shells` returns the shells found at any depth of compounds and assemblies, and nothing else. -/
theorem C114_get_shells (m : VolumeModel K) (s : Prim K) : s ∈ m.getShells ↔ ∃ p ∈ m.primitives, Inside s p := unpackAll_iff s m.primitives

/-- **C114** `frame_mapping(frame, 'old')` of a volume model succeeds, and its shells, in the same order, are the shells of the model with every point mapped:
the new point has in the frame the coordinates that the old point has in the absolute frame. -/
theorem C114_frame_mapping_old_partial (m : VolumeModel K) (hm : GoodAll m.primitives) (g : Frame3 K) :
    ∃ m', m.frameMapping g .old = .ok m' ∧ GoodAll m'.primitives ∧ List.Forall₂ (Moved oxyz g) m.getShells m'.getShells := by
  obtain ⟨l, hl⟩ := mapAll_total m.primitives hm g
  refine ⟨⟨l⟩, by unfold VolumeModel.frameMapping; rw [hl]; rfl, (mapAll_comp m.primitives hm g l hl).1, ?_⟩
  refine (mapAll_shells m.primitives hm g l hl).imp ?_
  rintro s s' ⟨ps, rfl, rfl⟩
  refine ⟨ps, _, rfl, rfl, ?_⟩
  rw [List.forall₂_map_right_iff]
  refine List.forall₂_same.2 fun x _ => ⟨x, (app_coord _ _ _).2 (app_oxyz x).symm, (app_coord _ _ _).2 rfl⟩

/-- The inverse of a frame. -/
def inv (g : Frame3 K) (m : M33 K) : Frame3 K := ⟨-m.cMulVec g.origin, Basis3.ofMatrix m⟩

theorem mapPoint_new {g : Frame3 K} {m : M33 K} (h : g.basis.transfer.inverse = .ok m) : mapPoint g .new = mapPoint (inv g m) .old := by
  funext p
  rw [mapPoint_old]
  show (do let m ← g.basis.transfer.inverse; return m.cMulVec (p - g.origin)) = _
  rw [h]
  refine congrArg Except.ok ?_
  ext <;> simp [app, inv, Basis3.ofMatrix, Basis3.transfer, M33.cMulVec] <;> ring

theorem mapFrame_new {g : Frame3 K} {m : M33 K} (h : g.basis.transfer.inverse = .ok m) : mapFrame g .new = mapFrame (inv g m) .old := by
  funext f
  rw [mapFrame_old]
  show (do let m ← g.basis.transfer.inverse; return (⟨m.cMulVec (f.origin - g.origin), ⟨m.cMulVec f.basis.u, m.cMulVec f.basis.v,
    m.cMulVec f.basis.w⟩⟩ : Frame3 K)) = _
  rw [h]
  refine congrArg Except.ok ?_
  ext <;> simp [comp, inv, Basis3.ofMatrix, Basis3.transfer, M33.cMulVec] <;> ring

mutual
theorem map_new {g : Frame3 K} {m : M33 K} (h : g.basis.transfer.inverse = .ok m) :
    ∀ c : Prim K, c.frameMapping g .new = c.frameMapping (inv g m) .old
  | .point p => by rw [Prim.frameMapping, Prim.frameMapping, mapPoint_new h]
  | .frame p => by rw [Prim.frameMapping, Prim.frameMapping, mapFrame_new h]
  | .curve p => by rw [Prim.frameMapping, Prim.frameMapping, mapPoint_new h]
  | .shell p => by rw [Prim.frameMapping, Prim.frameMapping, mapPoint_new h]
  | .compound l => by rw [Prim.frameMapping, Prim.frameMapping, mapAll_new h l]
  | .assembly cs ps f l => by rw [Prim.frameMapping, Prim.frameMapping, mapFrame_new h]
theorem mapAll_new {g : Frame3 K} {m : M33 K} (h : g.basis.transfer.inverse = .ok m) :
    ∀ l : List (Prim K), mapAll g .new l = mapAll (inv g m) .old l
  | [] => by rw [mapAll, mapAll]
  | p :: l => by rw [mapAll, mapAll, map_new h p, mapAll_new h l]
end

theorem inv_comp {g : Frame3 K} {m : M33 K} (h1 : g.basis.transfer.mul m = M33.one) (h2 : m.mul g.basis.transfer = M33.one) :
    comp g (inv g m) = oxyz ∧ comp (inv g m) g = oxyz := by
  obtain ⟨o, ⟨u, v, w⟩⟩ := g
  have a1 := congrArg M33.m11 h1
  have a2 := congrArg M33.m12 h1
  have a3 := congrArg M33.m13 h1
  have a4 := congrArg M33.m21 h1
  have a5 := congrArg M33.m22 h1
  have a6 := congrArg M33.m23 h1
  have a7 := congrArg M33.m31 h1
  have a8 := congrArg M33.m32 h1
  have a9 := congrArg M33.m33 h1
  have b1 := congrArg M33.m11 h2
  have b2 := congrArg M33.m12 h2
  have b3 := congrArg M33.m13 h2
  have b4 := congrArg M33.m21 h2
  have b5 := congrArg M33.m22 h2
  have b6 := congrArg M33.m23 h2
  have b7 := congrArg M33.m31 h2
  have b8 := congrArg M33.m32 h2
  have b9 := congrArg M33.m33 h2
  simp only [M33.mul, Basis3.transfer, M33.one] at a1 a2 a3 a4 a5 a6 a7 a8 a9 b1 b2 b3 b4 b5 b6 b7 b8 b9
  constructor
  · ext <;> simp only [comp, inv, oxyz, Basis3.ofMatrix, Basis3.transfer, M33.cMulVec, V3.add_x, V3.add_y, V3.add_z, V3.neg_x, V3.neg_y, V3.neg_z]
    · linear_combination (-o.x) * a1 - o.y * a2 - o.z * a3
    · linear_combination (-o.x) * a4 - o.y * a5 - o.z * a6
    · linear_combination (-o.x) * a7 - o.y * a8 - o.z * a9
    · linear_combination a1
    · linear_combination a4
    · linear_combination a7
    · linear_combination a2
    · linear_combination a5
    · linear_combination a8
    · linear_combination a3
    · linear_combination a6
    · linear_combination a9
  · ext <;> simp only [comp, inv, oxyz, Basis3.ofMatrix, Basis3.transfer, M33.cMulVec, V3.add_x, V3.add_y, V3.add_z, V3.neg_x, V3.neg_y, V3.neg_z]
    · ring
    · ring
    · ring
    · linear_combination b1
    · linear_combination b4
    · linear_combination b7
    · linear_combination b2
    · linear_combination b5
    · linear_combination b8
    · linear_combination b3
    · linear_combination b6
    · linear_combination b9

/-- **C114** `frame_mapping` with the two sides, one after the other in any order, gives the model back: the same primitives, components, positions, points. -/
theorem C114_frame_mapping_undo_partial (m : VolumeModel K) (hm : GoodAll m.primitives) (g : Frame3 K) (hg : g.Invertible) :
    (∃ m', m.frameMapping g .new = .ok m' ∧ m'.frameMapping g .old = .ok m) ∧ ∃ m', m.frameMapping g .old = .ok m' ∧ m'.frameMapping g .new = .ok m := by
  obtain ⟨b, hb, h1, h2⟩ := Frame3.inverse_ok hg
  obtain ⟨e1, e2⟩ := inv_comp h1 h2
  constructor
  · obtain ⟨l, hl⟩ := mapAll_total m.primitives hm (inv g b)
    refine ⟨⟨l⟩, by unfold VolumeModel.frameMapping; rw [mapAll_new hb, hl]; rfl, ?_⟩
    unfold VolumeModel.frameMapping
    rw [(mapAll_comp m.primitives hm _ l hl).2, e1, mapAll_id _ hm]; rfl
  · obtain ⟨l, hl⟩ := mapAll_total m.primitives hm g
    refine ⟨⟨l⟩, by unfold VolumeModel.frameMapping; rw [hl]; rfl, ?_⟩
    unfold VolumeModel.frameMapping
    rw [mapAll_new hb, (mapAll_comp m.primitives hm _ l hl).2, e2, mapAll_id _ hm]; rfl

/-- The full claim for `'old'`, without the condition on the frames of the assemblies: any regular frame. -/
def C114_full_statement (K : Type) [Field K] [LinearOrder K] : Prop :=
  ∀ (m : VolumeModel K) (cs : List (Prim K)) (ps : List (Frame3 K)) (f : Frame3 K) (l : List (Prim K)), Regular f →
    m = ⟨[.assembly cs ps f l]⟩ → Prim.newAssembly cs ps f = .ok (.assembly cs ps f l) → ∀ g : Frame3 K, Regular g →
      ∃ m', m.frameMapping g .old = .ok m' ∧ List.Forall₂ (Moved oxyz g) m.getShells m'.getShells

/-- **C114** with another origin, an assembly whose component is at the frame of the assembly itself does not move with the model: it is translated
along (2, 0, 0), its shell goes from (1, 0, 0) to (4, 0, 0). -/
theorem C114_counterexample : ¬ C114_full_statement ℚ := by
  intro h
  have hnew : Prim.newAssembly [.shell [⟨1, 0, 0⟩]] [shifted] shifted =
      .ok (.assembly [.shell [⟨1, 0, 0⟩]] [shifted] shifted [.shell [⟨1, 0, 0⟩]]) := by
    unfold Prim.newAssembly
    rw [placeAll_cons]
    unfold place
    rw [if_pos rfl]
    rfl
  obtain ⟨m', h1, h2⟩ := h ⟨[.assembly [.shell [⟨1, 0, 0⟩]] [shifted] shifted [.shell [⟨1, 0, 0⟩]]]⟩ _ _ _ _ (by decide +kernel) rfl hnew
    ⟨⟨2, 0, 0⟩, ⟨⟨1, 0, 0⟩, ⟨0, 1, 0⟩, ⟨0, 0, 1⟩⟩⟩ (by decide +kernel)
  have e : VolumeModel.frameMapping ⟨[.assembly [.shell [⟨1, 0, 0⟩]] [shifted] shifted [.shell [⟨1, 0, 0⟩]]]⟩
      ⟨⟨2, 0, 0⟩, ⟨⟨1, 0, 0⟩, ⟨0, 1, 0⟩, ⟨0, 0, 1⟩⟩⟩ .old =
      .ok ⟨[.assembly [.shell [⟨1, 0, 0⟩]] [⟨⟨3, 0, 0⟩, ⟨⟨1, 0, 0⟩, ⟨0, 1, 0⟩, ⟨0, 0, 1⟩⟩⟩] shifted [.shell [⟨4, 0, 0⟩]]]⟩ := by
    unfold VolumeModel.frameMapping
    rw [mapAll, Prim.frameMapping, mapM_frames]
    have c1 : [shifted].map (comp (⟨⟨2, 0, 0⟩, ⟨⟨1, 0, 0⟩, ⟨0, 1, 0⟩, ⟨0, 0, 1⟩⟩⟩ : Frame3 ℚ)) = [⟨⟨3, 0, 0⟩, ⟨⟨1, 0, 0⟩, ⟨0, 1, 0⟩, ⟨0, 0, 1⟩⟩⟩] := by
      decide +kernel
    have c2 : placementFrame shifted ⟨⟨3, 0, 0⟩, ⟨⟨1, 0, 0⟩, ⟨0, 1, 0⟩, ⟨0, 0, 1⟩⟩⟩ = .ok ⟨⟨3, 0, 0⟩, ⟨⟨1, 0, 0⟩, ⟨0, 1, 0⟩, ⟨0, 0, 1⟩⟩⟩ := by
      decide +kernel
    have c3 : placeAll shifted [.shell [⟨1, 0, 0⟩]] [⟨⟨3, 0, 0⟩, ⟨⟨1, 0, 0⟩, ⟨0, 1, 0⟩, ⟨0, 0, 1⟩⟩⟩] = .ok [.shell [⟨4, 0, 0⟩]] := by
      rw [placeAll_cons]
      unfold place
      rw [if_neg (by decide +kernel), c2]
      simp only [Prim.isFrame]
      rw [if_neg (by decide +kernel), Prim.frameMapping, mapM_points]
      have : app (⟨⟨3, 0, 0⟩, ⟨⟨1, 0, 0⟩, ⟨0, 1, 0⟩, ⟨0, 0, 1⟩⟩⟩ : Frame3 ℚ) ⟨1, 0, 0⟩ = ⟨4, 0, 0⟩ := by decide +kernel
      simp only [List.map_cons, List.map_nil, this]
      rfl
    rw [c1]
    simp only [c3]
    rfl
  rw [e] at h1
  rw [← Except.ok.inj h1] at h2
  simp only [VolumeModel.getShells, unpackAll, Prim.unpack, List.append_nil] at h2
  cases h2 with
  | cons hm _ =>
    obtain ⟨ps, ps', e1, e2, hh⟩ := hm
    injection e1 with e1
    injection e2 with e2
    subst e1 e2
    cases hh with
    | cons hx _ =>
      obtain ⟨x, hx1, hx2⟩ := hx
      have a1 := congrArg V3.x hx1
      have b1 := congrArg V3.x hx2
      simp [oxyz, V3.smul] at a1 b1
      rw [← a1] at b1
      norm_num at b1

/-- A model with an assembly and a compound. -/
def scene : VolumeModel ℚ := ⟨[nested, .compound [.shell [⟨0, 0, 1⟩], .point ⟨0, 0, 0⟩, nested]]⟩

theorem scene_good : GoodAll scene.primitives := ⟨nested_good, ⟨trivial, trivial, nested_good, trivial⟩, trivial⟩

example : ∃ m', scene.frameMapping turned .old = .ok m' ∧ m'.getShells.length = 3 := by
  obtain ⟨m', h1, -, h2⟩ := C114_frame_mapping_old_partial scene scene_good turned
  exact ⟨m', h1, h2.length_eq.symm⟩
example : ∃ m', scene.frameMapping turned .new = .ok m' ∧ m'.frameMapping turned .old = .ok scene :=
  (C114_frame_mapping_undo_partial scene scene_good turned (by unfold Frame3.Invertible; decide +kernel)).1
example : Prim.shell [⟨5, 1, 0⟩, ⟨3, 0, 0⟩] ∈ scene.getShells :=
  (C114_get_shells scene _).2 ⟨nested, .head _, .assembly _ _ _ _ _ (.head _) (.self _ rfl)⟩

/-- **C114** `translation` of a model without assemblies and compounds moves every shell by the offset; with one of them it raises. -/
theorem C114_translation (m : VolumeModel K) (offset : V3 K) :
    ((∃ p ∈ m.primitives, (∃ l, p = .compound l) ∨ ∃ cs ps f l, p = .assembly cs ps f l) ↔ m.translation offset = none) ∧
    ∀ m', m.translation offset = some m' →
      List.Forall₂ (Moved oxyz ⟨offset, ⟨⟨1, 0, 0⟩, ⟨0, 1, 0⟩, ⟨0, 0, 1⟩⟩⟩) m.getShells m'.getShells := by
  obtain ⟨l⟩ := m
  unfold VolumeModel.translation VolumeModel.getShells
  simp only
  induction l with
  | nil =>
    refine ⟨by simp, fun m' h => ?_⟩
    have : m' = ⟨[]⟩ := (Option.some.inj h).symm
    subst this
    exact .nil
  | cons p l ih =>
    obtain ⟨i1, i2⟩ := ih
    rw [List.mapM_cons]
    cases p with
    | compound q => exact ⟨by simp [Prim.translation], fun m' h => by simp [Prim.translation] at h⟩
    | assembly a b c d => exact ⟨by simp [Prim.translation], fun m' h => by simp [Prim.translation] at h⟩
    | point q =>
      cases ht : l.mapM (fun p : Prim K => p.translation offset) with
      | none =>
        rw [ht] at i1
        obtain ⟨r, hr, hh⟩ := i1.2 rfl
        exact ⟨⟨fun _ => rfl, fun _ => ⟨r, .tail _ hr, hh⟩⟩, fun m' h => by simp [Prim.translation] at h⟩
      | some l' =>
        rw [ht] at i1 i2
        have i2 := i2 ⟨l'⟩ rfl
        refine ⟨⟨?_, fun h => by simp [Prim.translation] at h⟩, ?_⟩
        · rintro ⟨r, hr, hh⟩
          rcases List.mem_cons.1 hr with rfl | hr
          · rcases hh with ⟨_, h⟩ | ⟨_, _, _, _, h⟩ <;> cases h
          · exact absurd (i1.1 ⟨r, hr, hh⟩) (by simp)
        · intro m' h
          have e : m' = ⟨.point (q + offset) :: l'⟩ := (Option.some.inj h).symm
          subst e
          simp only [unpackAll, Prim.unpack, List.nil_append]
          exact i2
    | frame q =>
      cases ht : l.mapM (fun p : Prim K => p.translation offset) with
      | none =>
        rw [ht] at i1
        obtain ⟨r, hr, hh⟩ := i1.2 rfl
        exact ⟨⟨fun _ => rfl, fun _ => ⟨r, .tail _ hr, hh⟩⟩, fun m' h => by simp [Prim.translation] at h⟩
      | some l' =>
        rw [ht] at i1 i2
        have i2 := i2 ⟨l'⟩ rfl
        refine ⟨⟨?_, fun h => by simp [Prim.translation] at h⟩, ?_⟩
        · rintro ⟨r, hr, hh⟩
          rcases List.mem_cons.1 hr with rfl | hr
          · rcases hh with ⟨_, h⟩ | ⟨_, _, _, _, h⟩ <;> cases h
          · exact absurd (i1.1 ⟨r, hr, hh⟩) (by simp)
        · intro m' h
          have e : m' = ⟨.frame ⟨q.origin + offset, q.basis⟩ :: l'⟩ := (Option.some.inj h).symm
          subst e
          simp only [unpackAll, Prim.unpack, List.nil_append]
          exact i2
    | curve q =>
      cases ht : l.mapM (fun p : Prim K => p.translation offset) with
      | none =>
        rw [ht] at i1
        obtain ⟨r, hr, hh⟩ := i1.2 rfl
        exact ⟨⟨fun _ => rfl, fun _ => ⟨r, .tail _ hr, hh⟩⟩, fun m' h => by simp [Prim.translation] at h⟩
      | some l' =>
        rw [ht] at i1 i2
        have i2 := i2 ⟨l'⟩ rfl
        refine ⟨⟨?_, fun h => by simp [Prim.translation] at h⟩, ?_⟩
        · rintro ⟨r, hr, hh⟩
          rcases List.mem_cons.1 hr with rfl | hr
          · rcases hh with ⟨_, h⟩ | ⟨_, _, _, _, h⟩ <;> cases h
          · exact absurd (i1.1 ⟨r, hr, hh⟩) (by simp)
        · intro m' h
          have e : m' = ⟨.curve (q.map fun p : V3 K => p + offset) :: l'⟩ := (Option.some.inj h).symm
          subst e
          simp only [unpackAll, Prim.unpack, List.nil_append]
          exact i2
    | shell q =>
      cases ht : l.mapM (fun p : Prim K => p.translation offset) with
      | none =>
        rw [ht] at i1
        obtain ⟨r, hr, hh⟩ := i1.2 rfl
        exact ⟨⟨fun _ => rfl, fun _ => ⟨r, .tail _ hr, hh⟩⟩, fun m' h => by simp [Prim.translation] at h⟩
      | some l' =>
        rw [ht] at i1 i2
        have i2 := i2 ⟨l'⟩ rfl
        refine ⟨⟨?_, fun h => by simp [Prim.translation] at h⟩, ?_⟩
        · rintro ⟨r, hr, hh⟩
          rcases List.mem_cons.1 hr with rfl | hr
          · rcases hh with ⟨_, h⟩ | ⟨_, _, _, _, h⟩ <;> cases h
          · exact absurd (i1.1 ⟨r, hr, hh⟩) (by simp)
        · intro m' h
          have e : m' = ⟨.shell (q.map fun p : V3 K => p + offset) :: l'⟩ := (Option.some.inj h).symm
          subst e
          simp only [unpackAll, Prim.unpack]
          refine .cons ⟨q, _, rfl, rfl, ?_⟩ i2
          rw [List.forall₂_map_right_iff]
          refine List.forall₂_same.2 fun x _ => ⟨x, (app_coord _ _ _).2 (app_oxyz x).symm, (app_coord _ _ _).2 ?_⟩
          ext <;> simp [app, M33.cMulVec, Basis3.transfer]

example : ∃ m', (⟨[.shell [⟨0, 0, 1⟩], .point ⟨0, 0, 0⟩]⟩ : VolumeModel ℚ).translation ⟨1, 1, 1⟩ = some m' ∧ m'.getShells.length = 1 := by
  cases h : (⟨[.shell [⟨0, 0, 1⟩], .point ⟨0, 0, 0⟩]⟩ : VolumeModel ℚ).translation ⟨1, 1, 1⟩ with
  | none =>
    obtain ⟨p, hp, hh⟩ := (C114_translation _ _).1.2 h
    simp at hp
    rcases hp with rfl | rfl <;> rcases hh with ⟨_, h⟩ | ⟨_, _, _, _, h⟩ <;> cases h
  | some m' => exact ⟨m', rfl, ((C114_translation _ _).2 m' h).length_eq.symm⟩

end Volmdlr.Scene
