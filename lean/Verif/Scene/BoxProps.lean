import Verif.Scene.PlaceProps
import Verif.BBox.Props
import Verif.Mesh.Props

/-!
# Boxes, meshes, equality and display of volume models (C115-C118)
-/

namespace Volmdlr.Scene
set_option linter.unusedSectionVars false
variable {K : Type*} [Field K] [LinearOrder K] [IsStrictOrderedRing K]

/-! ## C115: bounding boxes -/

/-- `x` is a point of a primitive: a point, or one of the points that define a curve or a shell, at any depth. -/
inductive HasPoint (x : V3 K) : Prim K → Prop
  | point : HasPoint x (.point x)
  | curve (ps : List (V3 K)) (h : x ∈ ps) : HasPoint x (.curve ps)
  | shell (ps : List (V3 K)) (h : x ∈ ps) : HasPoint x (.shell ps)
  | compound (l : List (Prim K)) (p : Prim K) (hp : p ∈ l) (h : HasPoint x p) : HasPoint x (.compound l)
  | assembly (cs : List (Prim K)) (ps : List (Frame3 K)) (f : Frame3 K) (l : List (Prim K)) (p : Prim K) (hp : p ∈ l) (h : HasPoint x p) :
      HasPoint x (.assembly cs ps f l)

/-- `b` is the smallest box that contains the points of a set. -/
def Tight (b : Box3 K) (S : V3 K → Prop) : Prop := b.Valid ∧ (∀ x, S x → b.Mem x) ∧ ∀ b' : Box3 K, (∀ x, S x → b'.Mem x) → b.Subset b'

mutual
/-- A primitive with a box: nothing is empty, and each compound or assembly has either only points, or no point of its own. -/
def Prim.Boxed : Prim K → Prop
  | .point _ => False
  | .frame _ => False
  | .curve ps => ps ≠ []
  | .shell ps => ps ≠ []
  | .compound l => (AllBoxed l ∧ SomeBoxed l) ∨ (l ≠ [] ∧ ∀ p ∈ l, ∃ q, p = .point q)
  | .assembly _ _ _ l => (AllBoxed l ∧ SomeBoxed l) ∨ (l ≠ [] ∧ ∀ p ∈ l, ∃ q, p = .point q)
/-- All of them have a box, except frames. -/
def AllBoxed : List (Prim K) → Prop
  | [] => True
  | p :: l => (p.Boxed ∨ ∃ f, p = .frame f) ∧ AllBoxed l
/-- One of them has a box. -/
def SomeBoxed : List (Prim K) → Prop
  | [] => False
  | p :: l => p.Boxed ∨ SomeBoxed l
end

theorem tight_points {ps : List (V3 K)} (h : ps ≠ []) : ∃ b, Box3.fromPoints ps = .ok b ∧ Tight b (· ∈ ps) := by
  obtain ⟨r, h1, h2, h3, h4⟩ := (C14_box_fromPoints ps).2 h
  exact ⟨r, h1, h2, fun x hx => h3 x hx, fun b' hb => h4 b' fun p hp => hb p hp⟩

theorem boxOfPoints_spec : ∀ (l : List (Prim K)), (∀ p ∈ l, ∃ q, p = .point q) →
    ∃ ps : List (V3 K), l = ps.map .point ∧ boxOfPoints l = Box3.fromPoints ps ∧ boxes l = []
  | [], _ => ⟨[], rfl, rfl, by rw [boxes]⟩
  | p :: l, h => by
    obtain ⟨q, rfl⟩ := h p (.head _)
    obtain ⟨ps, h1, -, h3⟩ := boxOfPoints_spec l fun p hp => h p (.tail _ hp)
    refine ⟨q :: ps, by rw [h1]; rfl, ?_, by rw [boxes, Prim.boundingBox]; exact h3⟩
    have : ∀ ps : List (V3 K), (ps.map Prim.point).mapM Prim.asPoint = some ps := by
      intro ps
      induction ps with
      | nil => rfl
      | cons a ps ih => rw [List.map_cons, List.mapM_cons, ih]; rfl
    unfold boxOfPoints
    rw [h1, ← List.map_cons, this]

/-- The box of a list of primitives (the common part of core.py:1049-1056 and 1223-1230). -/
theorem group_spec (l : List (Prim K)) (bs : List (Box3 K)) (hb : sequence (boxes l) = .ok bs)
    (h1 : ∀ b ∈ bs, ∃ p ∈ l, Tight b (HasPoint · p)) (h2 : ∀ p ∈ l, (∃ b ∈ bs, Tight b (HasPoint · p)) ∨ ∃ f, p = .frame f) (hne : bs ≠ []) :
    ∃ b, boxesBox (boxes l) = .ok b ∧
      Tight b (fun x => ∃ p ∈ l, HasPoint x p) := by
  obtain ⟨r, e1, e2, e3, e4⟩ := (C14_fromBoundingBoxes bs fun b hb => by obtain ⟨_, _, h, -⟩ := h1 b hb; exact h).2 hne
  refine ⟨r, by rw [boxesBox, hb]; exact e1, e2, ?_, ?_⟩
  · rintro x ⟨p, hp, hx⟩
    rcases h2 p hp with ⟨b, hb, ht⟩ | ⟨f, rfl⟩
    · exact e3 b hb x (ht.2.1 x hx)
    · cases hx
  · intro b' hb'
    refine e4 b' fun b hb => ?_
    obtain ⟨p, hp, ht⟩ := h1 b hb
    exact ht.2.2 b' fun x hx => hb' x ⟨p, hp, hx⟩

theorem sequence_length {α : Type*} : ∀ (l : List (Except PyErr α)) (r : List α), sequence l = .ok r → r.length = l.length
  | [], r, h => by rw [← Except.ok.inj h]; rfl
  | .error e :: l, r, h => by simp [sequence] at h
  | .ok a :: l, r, h => by
    rw [sequence] at h
    cases hs : sequence l with
    | error e => rw [hs] at h; cases h
    | ok r' =>
      rw [hs] at h
      rw [← Except.ok.inj h]
      simp [sequence_length l r' hs]

mutual
theorem boxed_spec : ∀ p : Prim K, p.Boxed → ∃ b, p.boundingBox = some (.ok b) ∧ Tight b (HasPoint · p)
  | .point _, h => h.elim
  | .frame _, h => h.elim
  | .curve ps, h => by
    obtain ⟨b, h1, h2, h3, h4⟩ := tight_points h
    refine ⟨b, by rw [Prim.boundingBox, h1], h2, ?_, fun b' hb => h4 b' fun x hx => hb x (.curve ps hx)⟩
    intro x hx
    cases hx with | curve _ h => exact h3 x h
  | .shell ps, h => by
    obtain ⟨b, h1, h2, h3, h4⟩ := tight_points h
    refine ⟨b, by rw [Prim.boundingBox, h1], h2, ?_, fun b' hb => h4 b' fun x hx => hb x (.shell ps hx)⟩
    intro x hx
    cases hx with | shell _ h => exact h3 x h
  | .compound l, h => by
    have key : ∃ b, groupBox l (boxes l) = .ok b ∧ Tight b (fun x => ∃ p ∈ l, HasPoint x p) := by
      rcases h with ⟨ha, hs⟩ | ⟨hne, hp⟩
      · obtain ⟨bs, h1, h2, h3, h4⟩ := allBoxed_spec l ha
        have hbs := h4 hs
        rw [groupBox, if_neg (by
          intro he
          rw [List.isEmpty_iff] at he
          rw [he] at h1
          exact hbs (Except.ok.inj h1).symm)]
        exact group_spec l bs h1 h2 h3 hbs
      · obtain ⟨ps, e1, e2, e3⟩ := boxOfPoints_spec l hp
        have : ps ≠ [] := by rintro rfl; exact hne e1
        obtain ⟨b, b1, b2, b3, b4⟩ := tight_points this
        rw [e3, groupBox, List.isEmpty_nil, if_pos rfl, e2]
        refine ⟨b, b1, b2, ?_, fun b' hb => b4 b' fun x hx => hb x ⟨.point x, by rw [e1]; exact List.mem_map_of_mem hx, .point⟩⟩
        rintro x ⟨p, hp, hx⟩
        rw [e1] at hp
        obtain ⟨q, hq, rfl⟩ := List.mem_map.1 hp
        cases hx with | point => exact b3 x hq
    obtain ⟨b, k1, k2, k3, k4⟩ := key
    refine ⟨b, by rw [Prim.boundingBox, k1], k2, ?_, fun b' hb => k4 b' ?_⟩
    · intro x hx
      cases hx with | compound _ p hp h => exact k3 x ⟨p, hp, h⟩
    · rintro x ⟨p, hp, hx⟩; exact hb x (.compound l p hp hx)
  | .assembly cs ps f l, h => by
    have key : ∃ b, groupBox l (boxes l) = .ok b ∧ Tight b (fun x => ∃ p ∈ l, HasPoint x p) := by
      rcases h with ⟨ha, hs⟩ | ⟨hne, hp⟩
      · obtain ⟨bs, h1, h2, h3, h4⟩ := allBoxed_spec l ha
        have hbs := h4 hs
        rw [groupBox, if_neg (by
          intro he
          rw [List.isEmpty_iff] at he
          rw [he] at h1
          exact hbs (Except.ok.inj h1).symm)]
        exact group_spec l bs h1 h2 h3 hbs
      · obtain ⟨ps, e1, e2, e3⟩ := boxOfPoints_spec l hp
        have : ps ≠ [] := by rintro rfl; exact hne e1
        obtain ⟨b, b1, b2, b3, b4⟩ := tight_points this
        rw [e3, groupBox, List.isEmpty_nil, if_pos rfl, e2]
        refine ⟨b, b1, b2, ?_, fun b' hb => b4 b' fun x hx => hb x ⟨.point x, by rw [e1]; exact List.mem_map_of_mem hx, .point⟩⟩
        rintro x ⟨p, hp, hx⟩
        rw [e1] at hp
        obtain ⟨q, hq, rfl⟩ := List.mem_map.1 hp
        cases hx with | point => exact b3 x hq
    obtain ⟨b, k1, k2, k3, k4⟩ := key
    refine ⟨b, by rw [Prim.boundingBox, k1], k2, ?_, fun b' hb => k4 b' ?_⟩
    · intro x hx
      cases hx with | assembly _ _ _ _ p hp h => exact k3 x ⟨p, hp, h⟩
    · rintro x ⟨p, hp, hx⟩; exact hb x (.assembly cs ps f l p hp hx)
theorem allBoxed_spec : ∀ l : List (Prim K), AllBoxed l → ∃ bs, sequence (boxes l) = .ok bs ∧
    (∀ b ∈ bs, ∃ p ∈ l, Tight b (HasPoint · p)) ∧ (∀ p ∈ l, (∃ b ∈ bs, Tight b (HasPoint · p)) ∨ ∃ f, p = .frame f) ∧ (SomeBoxed l → bs ≠ [])
  | [], _ => ⟨[], by rw [boxes]; rfl, by simp, by simp, fun h => h.elim⟩
  | p :: l, h => by
    obtain ⟨bs, h1, h2, h3, h4⟩ := allBoxed_spec l h.2
    rcases h.1 with hb | ⟨f, rfl⟩
    · obtain ⟨b, e1, e2⟩ := boxed_spec p hb
      refine ⟨b :: bs, by rw [boxes, e1]; simp only [sequence, h1]; rfl, ?_, ?_, fun _ => by simp⟩
      · intro c hc
        rcases List.mem_cons.1 hc with rfl | hc
        · exact ⟨p, .head _, e2⟩
        · obtain ⟨q, hq, ht⟩ := h2 c hc; exact ⟨q, .tail _ hq, ht⟩
      · intro q hq
        rcases List.mem_cons.1 hq with rfl | hq
        · exact .inl ⟨b, .head _, e2⟩
        · rcases h3 q hq with ⟨c, hc, ht⟩ | h
          · exact .inl ⟨c, .tail _ hc, ht⟩
          · exact .inr h
    · refine ⟨bs, by rw [boxes, Prim.boundingBox]; exact h1, fun b hb => ?_, fun q hq => ?_, fun hs => ?_⟩
      · obtain ⟨q, hq, ht⟩ := h2 b hb; exact ⟨q, .tail _ hq, ht⟩
      · rcases List.mem_cons.1 hq with rfl | hq
        · exact .inr ⟨f, rfl⟩
        · exact h3 q hq
      · rcases hs with hs | hs
        · exact hs.elim
        · exact h4 hs
end

/-- **C115** the box of a compound or an assembly (and of a curve, a shell) is the smallest box that contains all its points, provided that no compound or
assembly inside has points beside other primitives. -/
theorem C115_primitive_box_partial (p : Prim K) (h : p.Boxed) : ∃ b, p.boundingBox = some (.ok b) ∧ Tight b (HasPoint · p) := boxed_spec p h

/-- **C115** the same for a volume model. -/
theorem C115_model_box_partial (m : VolumeModel K) (h : AllBoxed m.primitives) (hs : SomeBoxed m.primitives) :
    ∃ b, m.boundingBox = .ok b ∧ Tight b (fun x => ∃ p ∈ m.primitives, HasPoint x p) := by
  obtain ⟨bs, h1, h2, h3, h4⟩ := allBoxed_spec m.primitives h
  exact group_spec m.primitives bs h1 h2 h3 (h4 hs)

/-- The full claim: when a box is returned, all the points are inside. -/
def C115_full_statement (K : Type) [Field K] [LinearOrder K] : Prop :=
  (∀ (p : Prim K) (b : Box3 K), p.boundingBox = some (.ok b) → ∀ x, HasPoint x p → b.Mem x) ∧
  ∀ (m : VolumeModel K) (b : Box3 K), m.boundingBox = .ok b → ∀ p ∈ m.primitives, ∀ x, HasPoint x p → b.Mem x

/-- **C115** the points of a compound that has something else beside are forgotten. -/
theorem C115_counterexample : ¬ C115_full_statement ℚ := by
  intro h
  have hb : (Prim.compound [.shell [⟨0, 0, 0⟩, ⟨1, 1, 1⟩], .point ⟨5, 0, 0⟩] : Prim ℚ).boundingBox = some (.ok ⟨0, 1, 0, 1, 0, 1⟩) := by
    rw [Prim.boundingBox]
    simp only [boxes, Prim.boundingBox]
    rw [show Box3.fromPoints [(⟨0, 0, 0⟩ : V3 ℚ), ⟨1, 1, 1⟩] = .ok ⟨0, 1, 0, 1, 0, 1⟩ by decide +kernel]
    rfl
  have := (h.1 _ _ hb ⟨5, 0, 0⟩ (.compound _ _ (.tail _ (.head _)) .point)).2.1
  norm_num at this

/-- A model of two shells, one of them in an assembly, has such a box. -/
example : ∃ b, (⟨[nested, .compound [.shell [⟨0, 0, 1⟩], .frame turned], .compound [.point ⟨1, 2, 3⟩]]⟩ : VolumeModel ℚ).boundingBox = .ok b := by
  obtain ⟨b, hb, -⟩ := C115_model_box_partial
    (⟨[nested, .compound [.shell [⟨0, 0, 1⟩], .frame turned], .compound [.point ⟨1, 2, 3⟩]]⟩ : VolumeModel ℚ)
    ⟨.inl (.inl ⟨⟨.inl (by simp [Prim.Boxed]), trivial⟩, .inl (by simp [Prim.Boxed])⟩),
      .inl (.inl ⟨⟨.inl (by simp [Prim.Boxed]), .inr ⟨turned, rfl⟩, trivial⟩, .inl (by simp [Prim.Boxed])⟩),
      .inl (.inr ⟨by simp, by simp⟩), trivial⟩
    (.inl (.inl ⟨⟨.inl (by simp [Prim.Boxed]), trivial⟩, .inl (by simp [Prim.Boxed])⟩))
  exact ⟨b, hb⟩
example : ∃ b, nested.boundingBox = some (.ok b) ∧ Tight b (HasPoint · nested) :=
  C115_primitive_box_partial nested (.inl ⟨⟨.inl (by simp [Prim.Boxed]), trivial⟩, .inl (by simp [Prim.Boxed])⟩)

/-! ## C116: equality, hash and volume -/

theorem foldl_and {α : Type*} (f : α → Bool) (l : List α) (b : Bool) : l.foldl (fun e x => e && f x) b = (b && l.all f) := by
  induction l generalizing b with
  | nil => simp
  | cons a l ih => rw [List.foldl_cons, ih, List.all_cons, Bool.and_assoc]

theorem zip_all {P : Type*} (eq : P → P → Bool) : ∀ l r : List P, l.length = r.length →
    ((l.zip r).all (fun pq => eq pq.1 pq.2) = true ↔ List.Forall₂ (fun p q => eq p q = true) l r)
  | [], [], _ => by simp
  | a :: l, b :: r, h => by
    rw [List.zip_cons_cons, List.all_cons, Bool.and_eq_true, zip_all eq l r (by simpa using h), List.forall₂_cons]

/-- **C116** two volume models are equal exactly when they have the same class and their primitives are equal one to one, in order. -/
theorem C116_eq {P : Type*} (eq : P → P → Bool) (c d : String) (l r : List P) :
    modelEq eq c d l r = true ↔ c = d ∧ List.Forall₂ (fun p q => eq p q = true) l r := by
  unfold modelEq
  by_cases hc : c = d
  · rw [if_neg (by simpa using hc)]
    by_cases hl : l.length = r.length
    · rw [if_neg (by simpa using hl), foldl_and, Bool.true_and, zip_all eq l r hl]
      simp [hc]
    · rw [if_pos hl]
      exact ⟨fun h => by simp at h, fun h => absurd h.2.length_eq hl⟩
  · rw [if_pos hc]
    exact ⟨fun h => by simp at h, fun h => absurd h.1 hc⟩

/-- **C116** equality of models is an equivalence relation when equality of primitives is, and equal models have equal hashes when equal primitives have. -/
theorem C116_equivalence {P : Type*} (eq : P → P → Bool) (hash : P → ℤ) (hr : ∀ p, eq p p = true) (hs : ∀ p q, eq p q = true → eq q p = true)
    (ht : ∀ p q r, eq p q = true → eq q r = true → eq p r = true) (hh : ∀ p q, eq p q = true → hash p = hash q) :
    (∀ c l, modelEq eq c c l l = true) ∧ (∀ c d l r, modelEq eq c d l r = true → modelEq eq d c r l = true) ∧
    (∀ c d e l r s, modelEq eq c d l r = true → modelEq eq d e r s = true → modelEq eq c e l s = true) ∧
    ∀ c d l r, modelEq eq c d l r = true → modelHash hash l = modelHash hash r := by
  simp only [C116_eq]
  refine ⟨fun c l => ⟨trivial, List.forall₂_same.2 fun p _ => hr p⟩, fun c d l r ⟨h1, h2⟩ => ⟨h1.symm, ?_⟩, ?_, ?_⟩
  · exact (List.forall₂_iff_get.2 ⟨h2.length_eq.symm, fun i h h' => hs _ _ ((List.forall₂_iff_get.1 h2).2 i h' h)⟩)
  · rintro c d e l r s ⟨rfl, h2⟩ ⟨rfl, h4⟩
    refine ⟨rfl, List.forall₂_iff_get.2 ⟨h2.length_eq.trans h4.length_eq, fun i h h' => ?_⟩⟩
    have hi : i < r.length := by rw [← h2.length_eq]; exact h
    exact ht _ _ _ ((List.forall₂_iff_get.1 h2).2 i h hi) ((List.forall₂_iff_get.1 h4).2 i hi h')
  · rintro c d l r ⟨-, h⟩
    induction h with
    | nil => rfl
    | cons h _ ih =>
      unfold modelHash at ih ⊢
      rw [List.map_cons, List.map_cons, List.sum_cons, List.sum_cons, ih, hh _ _ h]

/-- **C116** the volume is the sum over the primitives, in any order. -/
theorem C116_volume {P : Type*} (volume : P → K) (l r : List P) :
    modelVolume volume (l ++ r) = modelVolume volume l + modelVolume volume r ∧ (l.Perm r → modelVolume volume l = modelVolume volume r) ∧
    ∀ p, modelVolume volume [p] = volume p := by
  have key : ∀ l : List P, modelVolume volume l = (l.map volume).sum := by
    have : ∀ (l : List P) (a : K), l.foldl (fun acc p => acc + volume p) a = a + (l.map volume).sum := by
      intro l
      induction l with
      | nil => simp
      | cons p l ih => intro a; rw [List.foldl_cons, ih, List.map_cons, List.sum_cons, add_assoc]
    intro l
    unfold modelVolume
    rw [this, zero_add]
  refine ⟨by rw [key, key, key, List.map_append, List.sum_append], fun h => ?_, fun p => by rw [key]; simp⟩
  rw [key, key]
  exact (h.map volume).sum_eq

example : modelEq (fun a b : ℕ => a == b) "VolumeModel" "VolumeModel" [1, 2] [1, 2] = true :=
  (C116_eq _ _ _ _ _).2 ⟨rfl, .cons rfl (.cons rfl .nil)⟩
example : modelEq (fun a b : ℕ => a == b) "VolumeModel" "MovingVolumeModel" [1, 2] [1, 2] = false := by decide

/-! ## C117: the mesh of a model -/

/-- **C117** `to_mesh3d` (and the STL export made from it) keeps every triangle of every primitive, up to the order of its corners, and invents none; it raises
exactly for a model without primitives. -/
theorem C117_to_mesh (l : List (Mesh K)) (h : ∀ m ∈ l, m.Valid) :
    (l = [] ↔ toMesh3d l = .error .indexError) ∧
    (l ≠ [] → ∃ m, toMesh3d l = .ok m ∧ m.Valid ∧ (∀ g ∈ m.geom, ∃ t ∈ l, g ∈ t.geom) ∧ ∀ t ∈ l, ∀ g ∈ t.geom, ∃ g' ∈ m.geom, SameTri g' g) := by
  cases l with
  | nil => exact ⟨⟨fun _ => rfl, fun _ => rfl⟩, fun h => absurd rfl h⟩
  | cons a l =>
    refine ⟨⟨fun h => by simp at h, fun h => by simp [toMesh3d] at h⟩, fun _ => ⟨_, rfl, ?_⟩⟩
    have key : ∀ (l : List (Mesh K)) (a : Mesh K), a.Valid → (∀ m ∈ l, m.Valid) →
        (l.foldl (fun acc t => acc.merge t true true) a).Valid ∧
        (∀ g ∈ (l.foldl (fun acc t => acc.merge t true true) a).geom, ∃ t ∈ a :: l, g ∈ t.geom) ∧
        ∀ t ∈ a :: l, ∀ g ∈ t.geom, ∃ g' ∈ (l.foldl (fun acc t => acc.merge t true true) a).geom, SameTri g' g := by
      intro l
      induction l with
      | nil => intro a ha _; exact ⟨ha, fun g hg => ⟨a, .head _, hg⟩, fun t ht g hg => ⟨g, by rw [List.mem_singleton.1 ht] at hg; exact hg, List.Perm.refl _⟩⟩
      | cons b l ih =>
        intro a ha hl
        obtain ⟨v, g1, g2⟩ := C29_merge_triangles a b ha (hl b (.head _)) true
        obtain ⟨v', k1, k2⟩ := ih (a.merge b true true) v fun m hm => hl m (.tail _ hm)
        rw [List.foldl_cons]
        refine ⟨v', fun g hg => ?_, fun t ht g hg => ?_⟩
        · obtain ⟨t, ht, hg⟩ := k1 g hg
          rcases List.mem_cons.1 ht with rfl | ht
          · rcases List.mem_append.1 (g1 g hg) with h | h
            · exact ⟨a, .head _, h⟩
            · exact ⟨b, .tail _ (.head _), h⟩
          · exact ⟨t, .tail _ (.tail _ ht), hg⟩
        · have hab : t ∈ [a, b] → ∃ g' ∈ (l.foldl (fun acc t => acc.merge t true true) (a.merge b true true)).geom, SameTri g' g := by
            intro hh
            obtain ⟨g', hg', hs⟩ := g2 g (by
              simp only [List.mem_cons, List.not_mem_nil, or_false] at hh
              rcases hh with rfl | rfl
              · exact List.mem_append_left _ hg
              · exact List.mem_append_right _ hg)
            obtain ⟨g'', hg'', hs'⟩ := k2 _ (.head _) g' hg'
            exact ⟨g'', hg'', hs'.trans hs⟩
          rcases List.mem_cons.1 ht with rfl | ht
          · exact hab (.head _)
          rcases List.mem_cons.1 ht with rfl | ht
          · exact hab (.tail _ (.head _))
          · exact k2 t (.tail _ ht) g hg
    exact key l a (h a (.head _)) fun m hm => h m (.tail _ hm)

example : ∃ m, toMesh3d [exampleMesh, exampleMesh] = .ok m ∧ m.Valid := by
  obtain ⟨m, h1, h2, -⟩ := (C117_to_mesh [exampleMesh, exampleMesh] (by intro m hm; simp at hm; rw [hm]; exact exampleMesh_valid)).2 (by simp)
  exact ⟨m, h1, h2⟩

/-! ## C118: display data -/

/-- `x` is a position of a mesh, or of one of its sub-meshes at any depth. -/
inductive InMesh (x : V3 K) : BMesh K → Prop
  | here (ps : List (V3 K)) (l : List (BMesh K)) (h : x ∈ ps) : InMesh x (.mk ps l)
  | sub (ps : List (V3 K)) (l : List (BMesh K)) (m : BMesh K) (hm : m ∈ l) (h : InMesh x m) : InMesh x (.mk ps l)

mutual
theorem extract_iff (x : V3 K) : ∀ m : BMesh K, x ∈ m.extract ↔ InMesh x m
  | .mk ps l => by
    rw [BMesh.extract, List.mem_append, extractAll_iff x l]
    constructor
    · rintro (⟨m, hm, h⟩ | h)
      · exact .sub ps l m hm h
      · exact .here ps l h
    · intro h
      cases h with
      | here _ _ h => exact .inr h
      | sub _ _ m hm h => exact .inl ⟨m, hm, h⟩
theorem extractAll_iff (x : V3 K) : ∀ l : List (BMesh K), x ∈ extractAll l ↔ ∃ m ∈ l, InMesh x m
  | [] => by rw [extractAll]; simp
  | m :: l => by rw [extractAll, List.mem_append, extract_iff x m, extractAll_iff x l]; simp
end

/-- The points drawn. -/
def Drawn (meshes : List (BMesh K)) (lines : List (List (V3 K))) (points : List (V3 K)) (x : V3 K) : Prop :=
  (∃ m ∈ meshes, InMesh x m) ∨ (∃ l ∈ lines, x ∈ l) ∨ x ∈ points

/-- **C118** the centre and the length given to the viewer: an error exactly when nothing is drawn; otherwise they are the centre and the longest side of the
smallest box that contains all that is drawn. -/
theorem C118_display (meshes : List (BMesh K)) (lines : List (List (V3 K))) (points : List (V3 K)) :
    ((∀ x, ¬ Drawn meshes lines points x) ↔ helperBabylonData meshes lines points = .error .valueError) ∧
    ∀ d, helperBabylonData meshes lines points = .ok d → ∃ b : Box3 K, Tight b (Drawn meshes lines points) ∧
      d.center = ⟨(b.xmin + b.xmax) / 2, (b.ymin + b.ymax) / 2, (b.zmin + b.zmax) / 2⟩ ∧
      (b.xmax - b.xmin ≤ d.maxLength ∧ b.ymax - b.ymin ≤ d.maxLength ∧ b.zmax - b.zmin ≤ d.maxLength) ∧
      (d.maxLength = b.xmax - b.xmin ∨ d.maxLength = b.ymax - b.ymin ∨ d.maxLength = b.zmax - b.zmin) := by
  have hd : ∀ x, Drawn meshes lines points x ↔ x ∈ extractAll meshes ++ (lines.flatMap (fun l : List (V3 K) => l) ++ points) := by
    intro x
    unfold Drawn
    rw [List.mem_append, List.mem_append, extractAll_iff, List.mem_flatMap]
  unfold helperBabylonData
  simp only
  generalize extractAll meshes ++ (lines.flatMap (fun l : List (V3 K) => l) ++ points) = all at hd
  cases all with
  | nil =>
    refine ⟨⟨fun _ => rfl, fun _ x hx => ?_⟩, fun d h => by simp at h⟩
    have := (hd x).1 hx
    simp at this
  | cons p l =>
    refine ⟨⟨fun h => absurd ((hd p).2 (.head _)) (h p), fun h => by simp at h⟩, fun d h => ?_⟩
    have h := Except.ok.inj h
    obtain ⟨b, h1, h2⟩ := tight_points (K := K) (ps := p :: l) (by simp)
    refine ⟨b, ⟨h2.1, fun x hx => h2.2.1 x ((hd x).1 hx), fun b' hb => h2.2.2 b' fun x hx => hb x ((hd x).2 hx)⟩, ?_⟩
    have hb := Except.ok.inj h1
    rw [← h, ← hb]
    refine ⟨?_, ⟨?_, ?_, ?_⟩, ?_⟩
    · ext <;> simp only [V3.smul_x, V3.smul_y, V3.smul_z, V3.add_x, V3.add_y, V3.add_z] <;> ring
    · exact (le_max_left _ _).trans (le_max_left _ _)
    · exact (le_max_right _ _).trans (le_max_left _ _)
    · exact le_max_right _ _
    · rcases max_choice (max (listMax p.x (l.map V3.x) - listMin p.x (l.map V3.x)) (listMax p.y (l.map V3.y) - listMin p.y (l.map V3.y)))
        (listMax p.z (l.map V3.z) - listMin p.z (l.map V3.z)) with e | e
      · rcases max_choice (listMax p.x (l.map V3.x) - listMin p.x (l.map V3.x)) (listMax p.y (l.map V3.y) - listMin p.y (l.map V3.y)) with e' | e'
        · exact .inl (e.trans e')
        · exact .inr (.inl (e.trans e'))
      · exact .inr (.inr e)

example : ∃ d, helperBabylonData [.mk [] [.mk [⟨0, 0, 0⟩, ⟨2, 1, 0⟩] []]] [[⟨0, 5, 0⟩]] [(⟨1, 1, -1⟩ : V3 ℚ)] = .ok d := by
  cases h : helperBabylonData [.mk [] [.mk [⟨0, 0, 0⟩, ⟨2, 1, 0⟩] []]] [[⟨0, 5, 0⟩]] [(⟨1, 1, -1⟩ : V3 ℚ)] with
  | ok d => exact ⟨d, rfl⟩
  | error e =>
    have he : e = .valueError := by
      unfold helperBabylonData at h
      simp only [extractAll, BMesh.extract] at h
      cases h
    rw [he] at h
    exact absurd (.inr (.inr (.head _))) ((C118_display _ _ _).1.2 h ⟨1, 1, -1⟩)

/-- **C118** the constructor of a moving model accepts exactly the steps with one frame per primitive; a step of the animation places each primitive with its own
frame. -/
theorem C118_moving_steps (prims : List (Prim K)) (steps : List (List (Frame3 K))) (hg : GoodAll prims) :
    ((∃ m, Moving.new prims steps = .ok m) ↔ ∀ fs ∈ steps, fs.length = prims.length) ∧
    ∀ m, Moving.new prims steps = .ok m → ∀ (i : ℕ) (fs : List (Frame3 K)), steps[i]? = some fs →
      ∃ vm, m.stepVolumeModel i = .ok vm ∧ vm.primitives.length = prims.length ∧
        ∀ (j : ℕ) (p q : Prim K) (f : Frame3 K), prims[j]? = some p → fs[j]? = some f → vm.primitives[j]? = some q →
          List.Forall₂ (Moved oxyz f) p.unpack q.unpack := by
  have hall : (steps.all fun fs : List (Frame3 K) => fs.length == prims.length) = true ↔ ∀ fs ∈ steps, fs.length = prims.length := by simp
  constructor
  · unfold Moving.new
    constructor
    · rintro ⟨m, h⟩
      by_cases hc : (steps.all fun fs : List (Frame3 K) => fs.length == prims.length) = true
      · exact hall.1 hc
      · rw [if_neg hc] at h; cases h
    · intro h; rw [if_pos (hall.2 h)]; exact ⟨_, rfl⟩
  · intro m h i fs hi
    unfold Moving.new at h
    by_cases hc : (steps.all fun fs : List (Frame3 K) => fs.length == prims.length) = true
    swap
    · rw [if_neg hc] at h; cases h
    rw [if_pos hc] at h
    have h := Except.ok.inj h
    subst h
    have hlen := hall.1 hc fs (List.mem_of_getElem? hi)
    unfold Moving.stepVolumeModel
    simp only [hi]
    suffices ∀ (ps : List (Prim K)), GoodAll ps → ∀ fs : List (Frame3 K), fs.length = ps.length → ∃ qs, mapZip ps fs = .ok qs ∧ qs.length = ps.length ∧
        ∀ (j : ℕ) (p q : Prim K) (f : Frame3 K), ps[j]? = some p → fs[j]? = some f → qs[j]? = some q → List.Forall₂ (Moved oxyz f) p.unpack q.unpack by
      obtain ⟨qs, h1, h2, h3⟩ := this prims hg fs hlen
      exact ⟨⟨qs⟩, by rw [h1]; rfl, h2, h3⟩
    intro ps
    induction ps with
    | nil =>
      intro _ fs hl
      cases fs with
      | nil => exact ⟨[], rfl, rfl, fun j p q f h => by simp at h⟩
      | cons _ _ => simp at hl
    | cons p ps ih =>
      intro hg fs hl
      cases fs with
      | nil => simp at hl
      | cons f fs =>
        obtain ⟨qs, h1, h2, h3⟩ := ih hg.2 fs (by simpa using hl)
        obtain ⟨q, hq⟩ := map_total p hg.1 f
        refine ⟨q :: qs, by rw [mapZip, hq, h1], by simp [h2], ?_⟩
        intro j p' q' f' a1 a2 a3
        cases j with
        | zero =>
          simp only [List.getElem?_cons_zero, Option.some.injEq] at a1 a2 a3
          subst a1 a2 a3
          refine (map_shells p hg.1 f q hq).imp ?_
          rintro s s' ⟨pts, rfl, rfl⟩
          refine ⟨pts, _, rfl, rfl, ?_⟩
          rw [List.forall₂_map_right_iff]
          exact List.forall₂_same.2 fun x _ => ⟨x, (app_coord _ _ _).2 (app_oxyz x).symm, (app_coord _ _ _).2 rfl⟩
        | succ j =>
          simp only [List.getElem?_cons_succ] at a1 a2 a3
          exact h3 j p' q' f' a1 a2 a3

example : ∃ m, Moving.new [nested, .shell [⟨0, 0, 1⟩]] [[turned, shifted], [oxyz, turned]] = .ok m :=
  (C118_moving_steps [nested, .shell [⟨0, 0, 1⟩]] _ ⟨nested_good, trivial, trivial⟩).1.2 (by simp)

/-- The full claim: the frame announced for a mesh is the frame of the primitive whose mesh it is. -/
def C118_moving_meshes_full_statement : Prop :=
  ∀ (M : Type) (meshes : List (Option (List M))) (frames : List (Frame3 ℚ)), frames.length = meshes.length →
    ∀ k f, (k, f) ∈ movingStep meshes frames → ∃ (i : ℕ) (ms : List M) (m : M), meshes[i]? = some (some ms) ∧ m ∈ ms ∧ (movingMeshes meshes).1[k]? = some m ∧ frames[i]? = some f

theorem moving_index {M : Type*} : ∀ (meshes : List (Option (List M))), (∀ o ∈ meshes, ∀ ms, o = some ms → ms.length = 1) →
    ∀ (i : ℕ) (ms : List M), meshes[i]? = some (some ms) → ∃ m, ms = [m] ∧
      (movingMeshes meshes).1[(movingMeshes meshes).2.idxOf i]? = some m := by
  intro meshes h i ms hi
  obtain ⟨m, hm⟩ := List.length_eq_one_iff.1 (h _ (List.mem_of_getElem? hi) ms rfl)
  refine ⟨m, hm, ?_⟩
  subst hm
  induction meshes generalizing i with
  | nil => simp at hi
  | cons o meshes ih =>
    have hrange : (movingMeshes (o :: meshes)).2 = (if o.isSome then [0] else []) ++ (movingMeshes meshes).2.map (· + 1) := by
      unfold movingMeshes
      simp only [List.length_cons, List.range_succ_eq_map, List.filter_cons, List.getD_cons_zero]
      have : (List.map Nat.succ (List.range meshes.length)).filter (fun i => ((o :: meshes).getD i none).isSome) =
          ((List.range meshes.length).filter fun i => (meshes.getD i none).isSome).map (· + 1) := by
        rw [List.filter_map]
        rfl
      rw [this]
      by_cases ho : o.isSome = true
      · rw [if_pos ho, if_pos ho]; rfl
      · rw [if_neg ho, if_neg ho]; rfl
    have hfst : (movingMeshes (o :: meshes)).1 = o.getD [] ++ (movingMeshes meshes).1 := by unfold movingMeshes; simp
    cases i with
    | zero =>
      simp only [List.getElem?_cons_zero, Option.some.injEq] at hi
      subst hi
      rw [hrange, hfst]
      simp
    | succ i =>
      simp only [List.getElem?_cons_succ] at hi
      have ih := ih (fun o ho => h o (.tail _ ho)) i hi
      rw [hrange, hfst]
      have hidx : ((movingMeshes meshes).2.map (· + 1)).idxOf (i + 1) = (movingMeshes meshes).2.idxOf i := by
        generalize (movingMeshes meshes).2 = l
        induction l with
        | nil => rfl
        | cons a l ihl =>
          rw [List.map_cons, List.idxOf_cons, List.idxOf_cons, ihl]
          by_cases ha : a = i
          · subst ha; simp
          · simp
      cases o with
      | none =>
        simp only [Option.isSome_none, Bool.false_eq_true, if_false, List.nil_append, Option.getD_none]
        rw [hidx]; exact ih
      | some ms =>
        obtain ⟨m', hm'⟩ := List.length_eq_one_iff.1 (h _ (.head _) ms rfl)
        subst hm'
        simp only [Option.isSome_some, if_true, Option.getD_some, List.cons_append, List.nil_append]
        rw [List.idxOf_cons, hidx]
        simp
        exact ih

/-- **C118** when each primitive that has meshes has exactly one, the frame announced for a mesh is the frame of its primitive, and every mesh has one.  What is
missing: primitives whose triangulation fails, which have none (see the counterexample). -/
theorem C118_moving_meshes_partial {M : Type*} (meshes : List (Option (List M))) (frames : List (Frame3 K)) (hlen : frames.length = meshes.length)
    (h1 : ∀ o ∈ meshes, ∀ ms, o = some ms → ms.length = 1) :
    (∀ k f, (k, f) ∈ movingStep meshes frames → ∃ (i : ℕ) (m : M), meshes[i]? = some (some [m]) ∧ (movingMeshes meshes).1[k]? = some m ∧ frames[i]? = some f) ∧
    ∀ (i : ℕ) (m : M), meshes[i]? = some (some [m]) → ∃ k f, (k, f) ∈ movingStep meshes frames ∧ (movingMeshes meshes).1[k]? = some m ∧ frames[i]? = some f := by
  have hmem : ∀ i, i ∈ (movingMeshes meshes).2 ↔ ∃ ms, meshes[i]? = some (some ms) := by
    intro i
    unfold movingMeshes
    simp only [List.mem_filter, List.mem_range]
    constructor
    · rintro ⟨hi, hs⟩
      rw [List.getD_eq_getElem _ _ hi] at hs
      obtain ⟨ms, hms⟩ := Option.isSome_iff_exists.1 hs
      exact ⟨ms, by rw [List.getElem?_eq_getElem hi, hms]⟩
    · rintro ⟨ms, hms⟩
      have hi : i < meshes.length := by
        by_contra hc
        rw [List.getElem?_eq_none (by omega)] at hms
        cases hms
      rw [List.getElem?_eq_getElem hi, Option.some.injEq] at hms
      refine ⟨hi, ?_⟩
      rw [List.getD_eq_getElem _ _ hi, hms]; rfl
  constructor
  · intro k f hk
    unfold movingStep at hk
    obtain ⟨⟨f', i⟩, hf, he⟩ := List.mem_map.1 hk
    obtain ⟨hf1, hf2⟩ := List.mem_filter.1 hf
    injection he with he1 he2
    simp only at he1 he2 hf2
    subst he2
    have hi := of_decide_eq_true hf2
    obtain ⟨ms, hms⟩ := (hmem i).1 hi
    obtain ⟨m, rfl, hm⟩ := moving_index meshes h1 i ms hms
    refine ⟨i, m, hms, by rw [← he1]; exact hm, ?_⟩
    exact List.mem_zipIdx_iff_getElem?.1 hf1
  · intro i m hi
    obtain ⟨m', hm', hm⟩ := moving_index meshes h1 i [m] hi
    injection hm' with hm'
    subst hm'
    have hlt : i < frames.length := by
      rw [hlen]
      by_contra hc
      rw [List.getElem?_eq_none (by omega)] at hi
      cases hi
    refine ⟨_, frames[i], ?_, hm, List.getElem?_eq_getElem hlt⟩
    unfold movingStep
    refine List.mem_map.2 ⟨(frames[i], i), List.mem_filter.2 ⟨?_, decide_eq_true ((hmem i).2 ⟨_, hi⟩)⟩, rfl⟩
    exact List.mem_zipIdx_iff_getElem?.2 (List.getElem?_eq_getElem hlt)

/-- **C118** a primitive without mesh shifts the frames of the others. -/
theorem C118_moving_meshes_counterexample : ¬ C118_moving_meshes_full_statement := by
  intro h
  obtain ⟨i, ms, m, h1, h2, h3, h4⟩ := h ℕ [some [], some [7]] [oxyz, turned] rfl 0 oxyz (by
    rw [show movingStep ([some [], some [7]] : List (Option (List ℕ))) [(oxyz : Frame3 ℚ), turned] = [(0, oxyz), (1, turned)] by decide +kernel]
    exact .head _)
  match i with
  | 0 =>
    simp only [List.getElem?_cons_zero, Option.some.injEq] at h1
    subst h1
    simp at h2
  | 1 =>
    simp only [List.getElem?_cons_succ, List.getElem?_cons_zero, Option.some.injEq] at h4
    exact absurd h4 (by decide +kernel)
  | i + 2 => simp at h4

example : ∃ k f, (k, f) ∈ movingStep [none, some ["a"], some ["b"]] [oxyz, turned, shifted] ∧ (movingMeshes [none, some ["a"], some ["b"]]).1[k]? = some "b" ∧
    [oxyz, turned, shifted][2]? = some f :=
  (C118_moving_meshes_partial [none, some ["a"], some ["b"]] [oxyz, turned, shifted] rfl (by simp)).2 2 "b" rfl

end Volmdlr.Scene
