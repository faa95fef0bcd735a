import Verif.Scene.AabbModel
import Verif.Scene.BoxProps

/-!
# C219: the boxes of the intersection of two shells
-/

namespace Volmdlr.Scene
set_option linter.unusedSectionVars false
variable {K : Type*} [Field K] [LinearOrder K] [IsStrictOrderedRing K] {F G : Type*}

/-! ## Specification -/

/-- The ends of the edges of the intersections of the faces of the two shells. -/
def Crossing (s : ShellPair K F G) (x : V3 K) : Prop :=
  ∃ f ∈ s.faces1, ∃ g ∈ s.faces2, ∃ w ∈ s.intersections f g, ∃ e ∈ w, x = e.1 ∨ x = e.2

/-- The points of the outlines of the faces of the first shell that are in (out of) the other shell. -/
def OutlinePoint (s : ShellPair K F G) (inside : Bool) (x : V3 K) : Prop :=
  ∃ f ∈ s.faces1, x ∈ s.outline f ∧ s.contains x = inside

/-- `v` is the volume of the smallest box of a set of points, and zero when the set is empty. -/
def IsBoxVolume (S : V3 K → Prop) (v : K) : Prop :=
  ((∀ x, ¬ S x) ∧ v = 0) ∨ ∃ b : Box3 K, Tight b S ∧ v = b.volume

/-- The claim of the two methods, for all pairs of shells whose intersections have edges. -/
def AabbClaim (K F G : Type*) [Field K] [LinearOrder K] [IsStrictOrderedRing K] : Prop :=
  ∀ s : ShellPair K F G, (∀ f ∈ s.faces1, ∀ g ∈ s.faces2, ∀ w ∈ s.intersections f g, w ≠ []) →
    (∃ v, s.internalVolume = .ok v ∧ IsBoxVolume (fun x => Crossing s x ∨ OutlinePoint s true x) v) ∧
    ∃ v, s.externalVolume = .ok v ∧ IsBoxVolume (fun x => Crossing s x ∨ OutlinePoint s false x) v

/-! ## Proofs -/

lemma crossAll_spec (inter : List (List (List (V3 K × V3 K)))) (h : ∀ i ∈ inter, ∀ w ∈ i, w ≠ []) :
    ∀ acc : List (V3 K), ∃ ps, inter.foldlM (fun acc w => (crossPoints w).map fun ps => acc ++ ps) acc = (Except.ok ps : Except PyErr (List (V3 K))) ∧
      ∀ x, x ∈ ps ↔ x ∈ acc ∨ ∃ i ∈ inter, ∃ w, i.head? = some w ∧ ∃ e, w.head? = some e ∧ (x = e.1 ∨ x = e.2) := by
  induction inter with
  | nil => exact fun acc => ⟨acc, rfl, fun x => by simp⟩
  | cons i l ih =>
    intro acc
    have hl := ih fun j hj => h j (.tail _ hj)
    match i, h i (.head _) with
    | [], _ =>
      obtain ⟨ps, h1, h2⟩ := hl acc
      refine ⟨ps, ?_, fun x => by rw [h2]; simp⟩
      rw [List.foldlM_cons]
      simp only [crossPoints, Except.map, List.append_nil]
      exact h1
    | [] :: _, hi => exact absurd rfl (hi [] (.head _))
    | (e :: es) :: ws, _ =>
      obtain ⟨ps, h1, h2⟩ := hl (acc ++ [e.1, e.2])
      refine ⟨ps, ?_, fun x => ?_⟩
      rotate_left
      · rw [h2]
        constructor
        · rintro (hx | ⟨j, hj, w, hw, hx⟩)
          · rcases List.mem_append.mp hx with hx | hx
            · exact .inl hx
            · exact .inr ⟨_, .head _, _, rfl, e, rfl, by simpa using hx⟩
          · exact .inr ⟨j, .tail _ hj, w, hw, hx⟩
        · rintro (hx | ⟨j, hj, w, hw, e', he', hx⟩)
          · exact .inl (List.mem_append_left _ hx)
          · rcases List.mem_cons.mp hj with rfl | hj
            · cases hw
              cases he'
              exact .inl (List.mem_append_right _ (by simpa using hx))
            · exact .inr ⟨j, hj, w, hw, e', he', hx⟩
      rw [List.foldlM_cons]
      simp only [crossPoints, Except.map]
      exact h1

lemma boxVolume_spec {ps : List (V3 K)} {S : V3 K → Prop} (h : ∀ x, x ∈ ps ↔ S x) : ∃ v, boxVolume ps = .ok v ∧ IsBoxVolume S v := by
  unfold boxVolume
  by_cases h0 : ps.length = 0
  · rw [if_pos h0]
    have : ps = [] := List.length_eq_zero_iff.mp h0
    exact ⟨0, rfl, .inl ⟨fun x hx => by have := (h x).mpr hx; simp_all, rfl⟩⟩
  · rw [if_neg h0]
    obtain ⟨b, h1, h2⟩ := tight_points (ps := ps) (by rintro rfl; simp at h0)
    refine ⟨b.volume, by rw [h1]; rfl, .inr ⟨b, ?_, rfl⟩⟩
    have : (· ∈ ps) = S := funext fun x => propext (h x)
    rwa [this] at h2

/-- The ends of the first edge of the first wire of the intersection of each pair of faces. -/
def FirstCrossing (s : ShellPair K F G) (x : V3 K) : Prop :=
  ∃ f ∈ s.faces1, ∃ g ∈ s.faces2, ∃ w, (s.intersections f g).head? = some w ∧ ∃ e, w.head? = some e ∧ (x = e.1 ∨ x = e.2)

/-- **C219** (every pair) the two volumes are those of the smallest boxes of the points of the outlines in (out of) the other shell and of the ends of the first edge of the first wire of each intersection. -/
theorem C219_first_edges (s : ShellPair K F G) (h : ∀ f ∈ s.faces1, ∀ g ∈ s.faces2, ∀ w ∈ s.intersections f g, w ≠ []) :
    (∃ v, s.internalVolume = .ok v ∧ IsBoxVolume (fun x => FirstCrossing s x ∨ OutlinePoint s true x) v) ∧
    ∃ v, s.externalVolume = .ok v ∧ IsBoxVolume (fun x => FirstCrossing s x ∨ OutlinePoint s false x) v := by
  obtain ⟨ps, h1, h2⟩ := crossAll_spec (s.faces1.flatMap fun f => s.faces2.map fun g => s.intersections f g) (by
    intro i hi w hw
    simp only [List.mem_flatMap, List.mem_map] at hi
    obtain ⟨f, hf, g, hg, rfl⟩ := hi
    exact h f hf g hg w hw) []
  have hp : ∀ x, x ∈ ps ↔ FirstCrossing s x := by
    intro x
    rw [h2]
    constructor
    · rintro (hx | ⟨i, hi, w, hw, e, he, hx⟩)
      · cases hx
      · simp only [List.mem_flatMap, List.mem_map] at hi
        obtain ⟨f, hf, g, hg, rfl⟩ := hi
        exact ⟨f, hf, g, hg, w, hw, e, he, hx⟩
    · rintro ⟨f, hf, g, hg, w, hw, e, he, hx⟩
      exact .inr ⟨_, List.mem_flatMap.mpr ⟨f, hf, List.mem_map.mpr ⟨g, hg, rfl⟩⟩, w, hw, e, he, hx⟩
  constructor
  · obtain ⟨v, hv, hb⟩ := boxVolume_spec (ps := ps ++ s.faces1.flatMap fun f => (s.outline f).filter fun p => s.contains p)
      (S := fun x => FirstCrossing s x ∨ OutlinePoint s true x) (by
        intro x
        rw [List.mem_append, hp]
        simp [OutlinePoint])
    refine ⟨v, ?_, hb⟩
    unfold ShellPair.internalVolume crossAll
    rw [h1]
    exact hv
  · obtain ⟨v, hv, hb⟩ := boxVolume_spec (ps := ps ++ s.faces1.flatMap fun f => (s.outline f).filter fun p => !s.contains p)
      (S := fun x => FirstCrossing s x ∨ OutlinePoint s false x) (by
        intro x
        rw [List.mem_append, hp]
        simp [OutlinePoint])
    refine ⟨v, ?_, hb⟩
    unfold ShellPair.externalVolume crossAll
    rw [h1]
    exact hv

/-- **C219** (partial) the claim holds when the intersection of two faces is at most one wire, of one edge. -/
theorem C219_volume_partial (s : ShellPair K F G) (h : ∀ f ∈ s.faces1, ∀ g ∈ s.faces2, s.intersections f g = [] ∨ ∃ e, s.intersections f g = [[e]]) :
    (∃ v, s.internalVolume = .ok v ∧ IsBoxVolume (fun x => Crossing s x ∨ OutlinePoint s true x) v) ∧
    ∃ v, s.externalVolume = .ok v ∧ IsBoxVolume (fun x => Crossing s x ∨ OutlinePoint s false x) v := by
  have hc : ∀ x, FirstCrossing s x ↔ Crossing s x := by
    intro x
    constructor
    · rintro ⟨f, hf, g, hg, w, hw, e, he, hx⟩
      exact ⟨f, hf, g, hg, w, List.mem_of_mem_head? hw, e, List.mem_of_mem_head? he, hx⟩
    · rintro ⟨f, hf, g, hg, w, hw, e, he, hx⟩
      rcases h f hf g hg with h0 | ⟨e', h0⟩
      · rw [h0] at hw; cases hw
      · rw [h0, List.mem_singleton] at hw
        subst hw
        rw [List.mem_singleton] at he
        subst he
        exact ⟨f, hf, g, hg, _, by rw [h0]; rfl, _, rfl, hx⟩
  have := C219_first_edges s (by
    intro f hf g hg w hw
    rcases h f hf g hg with h0 | ⟨e', h0⟩
    · rw [h0] at hw; cases hw
    · rw [h0, List.mem_singleton] at hw
      simp [hw])
  simpa only [hc] using this

/-- **C219** the volume is at most that of any box which has the points of the outlines of the first shell and of the intersections. -/
theorem C219_bounded (s : ShellPair K F G) (h : ∀ f ∈ s.faces1, ∀ g ∈ s.faces2, ∀ w ∈ s.intersections f g, w ≠ []) (b : Box3 K) (hb : b.Valid)
    (h1 : ∀ x, Crossing s x → b.Mem x) (h2 : ∀ f ∈ s.faces1, ∀ x ∈ s.outline f, b.Mem x) (v : K) (hv : s.internalVolume = .ok v ∨ s.externalVolume = .ok v) :
    0 ≤ v ∧ v ≤ b.volume := by
  have hbv : 0 ≤ b.volume := by
    obtain ⟨x, y, z⟩ := hb
    exact mul_nonneg (mul_nonneg (sub_nonneg.mpr x) (sub_nonneg.mpr y)) (sub_nonneg.mpr z)
  have main : ∀ S : V3 K → Prop, (∀ x, S x → b.Mem x) → ∀ w, IsBoxVolume S w → 0 ≤ w ∧ w ≤ b.volume := by
    rintro S hS w (⟨-, rfl⟩ | ⟨c, ⟨⟨x, y, z⟩, -, hc⟩, rfl⟩)
    · exact ⟨le_rfl, hbv⟩
    · obtain ⟨a1, -, a3, -, a5, -⟩ := hc b hS ⟨c.xmin, c.ymin, c.zmin⟩ ⟨le_rfl, x, le_rfl, y, le_rfl, z⟩
      obtain ⟨-, a2, -, a4, -, a6⟩ := hc b hS ⟨c.xmax, c.ymax, c.zmax⟩ ⟨x, le_rfl, y, le_rfl, z, le_rfl⟩
      dsimp only at a1 a2 a3 a4 a5 a6
      refine ⟨mul_nonneg (mul_nonneg (sub_nonneg.mpr x) (sub_nonneg.mpr y)) (sub_nonneg.mpr z), ?_⟩
      have e1 : c.xmax - c.xmin ≤ b.xmax - b.xmin := by linarith
      have e2 : c.ymax - c.ymin ≤ b.ymax - b.ymin := by linarith
      have e3 : c.zmax - c.zmin ≤ b.zmax - b.zmin := by linarith
      exact mul_le_mul (mul_le_mul e1 e2 (sub_nonneg.mpr y) ((sub_nonneg.mpr x).trans e1)) e3 (sub_nonneg.mpr z)
        (mul_nonneg ((sub_nonneg.mpr x).trans e1) ((sub_nonneg.mpr y).trans e2))
  have hS : ∀ i x, FirstCrossing s x ∨ OutlinePoint s i x → b.Mem x := by
    rintro i x (⟨f, hf, g, hg, w, hw, e, he, hx⟩ | ⟨f, hf, hx, -⟩)
    · exact h1 x ⟨f, hf, g, hg, w, List.mem_of_mem_head? hw, e, List.mem_of_mem_head? he, hx⟩
    · exact h2 f hf x hx
  obtain ⟨⟨v1, i1, i2⟩, ⟨v2, i3, i4⟩⟩ := C219_first_edges s h
  rcases hv with hv | hv
  · rw [i1] at hv
    cases hv
    exact main _ (hS true) _ i2
  · rw [i3] at hv
    cases hv
    exact main _ (hS false) _ i4

/-- Two faces that cross along two edges, of which the methods see the first. -/
def twoEdges : ShellPair ℚ Unit Unit where
  faces1 := [()]
  faces2 := [()]
  intersections _ _ := [[(⟨0, 0, 0⟩, ⟨1, 0, 0⟩)], [(⟨0, 1, 1⟩, ⟨1, 1, 1⟩)]]
  outline _ := [⟨5, 5, 5⟩]
  contains _ := false

/-- **C219** the claim is false: the edges after the first one are not in the box. -/
theorem C219_volume_counterexample : ¬ AabbClaim ℚ Unit Unit := by
  intro h
  obtain ⟨⟨v, h1, h2⟩, -⟩ := h twoEdges (by simp [twoEdges])
  have h0 : twoEdges.internalVolume = .ok 0 := by
    decide +kernel
  rw [h0] at h1
  cases h1
  rcases h2 with ⟨h2, -⟩ | ⟨b, ⟨-, h3, -⟩, h4⟩
  · exact h2 ⟨0, 0, 0⟩ (.inl ⟨(), by simp [twoEdges], (), by simp [twoEdges], _, .head _, _, .head _, .inl rfl⟩)
  · have p : b.Mem ⟨0, 0, 0⟩ := h3 _ (.inl ⟨(), by simp [twoEdges], (), by simp [twoEdges], _, .head _, _, .head _, .inl rfl⟩)
    have q : b.Mem ⟨1, 1, 1⟩ := h3 _ (.inl ⟨(), by simp [twoEdges], (), by simp [twoEdges], _, .tail _ (.head _), _, .head _, .inr rfl⟩)
    obtain ⟨p1, p2, p3, p4, p5, p6⟩ := p
    obtain ⟨q1, q2, q3, q4, q5, q6⟩ := q
    dsimp only at *
    have e1 : (1 : ℚ) ≤ b.xmax - b.xmin := by linarith
    have e2 : (1 : ℚ) ≤ b.ymax - b.ymin := by linarith
    have e3 : (1 : ℚ) ≤ b.zmax - b.zmin := by linarith
    have : (0 : ℚ) < b.volume := mul_pos (mul_pos (by linarith) (by linarith)) (by linarith)
    linarith

/-- One crossing edge, one point of the outline in the other shell and one out of it. -/
def oneEdge : ShellPair ℚ Unit Unit where
  faces1 := [()]
  faces2 := [()]
  intersections _ _ := [[(⟨0, 0, 0⟩, ⟨1, 0, 2⟩)]]
  outline _ := [⟨1, 3, 1⟩, ⟨5, 5, 5⟩]
  contains p := decide (p.x < 2)

/-- The hypotheses of C219 are met; the two volumes are 6 and 125. -/
example : (∀ f ∈ oneEdge.faces1, ∀ g ∈ oneEdge.faces2, oneEdge.intersections f g = [] ∨ ∃ e, oneEdge.intersections f g = [[e]]) ∧
    oneEdge.internalVolume = .ok 6 ∧ oneEdge.externalVolume = .ok 125 :=
  ⟨fun _ _ _ _ => .inr ⟨_, rfl⟩, by decide +kernel, by decide +kernel⟩

end Volmdlr.Scene
